import Verif.Sim.Lemmas
import Mathlib.Algebra.BigOperators.Field

/-!
# C55, C56, C67–C70, C93: spatial interaction models and the Harris–Wilson dynamics
-/

namespace GeNSIT

open Finset

/-- A small instance used below: two origins, two destinations, two sweeps. -/
def demoSim : SimArgs where
  I := 2
  J := 2
  sweep := 2
  logAttraction := fun _ => 0
  alpha := fun _ => 1
  beta := fun _ => 1
  demand := fun i => (i : ℝ) + 1
  cost := fun i j => if i = 1 ∧ j = 1 then 1 else 0
  grandTotal := 10

/-! ## C55 -/

/-- **C55.** In every iteration and sweep, the `i`-th row of the production-constrained intensity
sums to the origin demand times the grand total (zero demand or total included). -/
theorem C55_row_total (a : SimArgs) (t s i : ℕ) (hi : i < a.I) (hJ : 0 < a.J)
    (hd : 0 ≤ a.demand i) (hG : 0 ≤ a.grandTotal) :
    ∑ j ∈ range a.J, a.flowP t s i j = a.demand i * a.grandTotal := by
  have hpos := sumExp_pos hJ (a.utilityP t s i)
  rw [sum_congr rfl (fun j _ => a.flowP_eq hi hJ hd hG j), ← sum_mul, ← mul_sum, ← sum_div,
    div_self hpos.ne', mul_one]

/-- **C55.** Every entry of an origin with positive demand is strictly positive. -/
theorem C55_positive (a : SimArgs) (t s i j : ℕ) (hi : i < a.I) (hJ : 0 < a.J)
    (hd : 0 < a.demand i) (hG : 0 < a.grandTotal) : 0 < a.flowP t s i j := by
  rw [a.flowP_eq hi hJ hd.le hG.le]
  have := sumExp_pos hJ (a.utilityP t s i)
  positivity

example : ∑ j ∈ range demoSim.J, demoSim.flowP 0 1 1 j = 2 * 10 := by
  rw [C55_row_total demoSim 0 1 1 (by decide) (by decide) (by norm_num [demoSim])
    (by norm_num [demoSim])]
  norm_num [demoSim]

/-- **C55.** The grand total of the matrix is the total demand times the grand total. -/
theorem C55_grand_total (a : SimArgs) (t s : ℕ) (hJ : 0 < a.J)
    (hd : ∀ i < a.I, 0 ≤ a.demand i) (hG : 0 ≤ a.grandTotal) :
    ∑ i ∈ range a.I, ∑ j ∈ range a.J, a.flowP t s i j =
      (∑ i ∈ range a.I, a.demand i) * a.grandTotal := by
  rw [sum_mul]
  exact sum_congr rfl fun i hi =>
    C55_row_total a t s i (mem_range.1 hi) hJ (hd i (mem_range.1 hi)) hG

/-! ## C56 -/

/-- **C56.** In every iteration and sweep the totally-constrained intensity sums to the grand
total. -/
theorem C56_total (a : SimArgs) (t s : ℕ) (hI : 0 < a.I) (hJ : 0 < a.J)
    (hG : 0 ≤ a.grandTotal) :
    ∑ i ∈ range a.I, ∑ j ∈ range a.J, a.flowT t s i j = a.grandTotal := by
  have hpos := sumExp2_pos hI hJ (a.utilityT t s)
  simp only [a.flowT_eq hI hJ hG, ← sum_mul, ← sum_div]
  rw [div_self hpos.ne', one_mul]

/-- **C56.** Every entry is strictly positive. -/
theorem C56_positive (a : SimArgs) (t s i j : ℕ) (hI : 0 < a.I) (hJ : 0 < a.J)
    (hG : 0 < a.grandTotal) : 0 < a.flowT t s i j := by
  rw [a.flowT_eq hI hJ hG.le]
  have := sumExp2_pos hI hJ (a.utilityT t s)
  positivity

example : ∑ i ∈ range demoSim.I, ∑ j ∈ range demoSim.J, demoSim.flowT 0 1 i j = 10 :=
  C56_total demoSim 0 1 (by decide) (by decide) (by norm_num [demoSim])

/-! ## C67: evaluating a batch equals evaluating its members -/

/-- The attraction vector of iteration `t`, sweep `s` in the caller's data. -/
def attractionOf (a : SimArgs) (t s : ℕ) : ℕ → ℝ :=
  fun j => a.logAttraction ((t * a.sweep + s) * a.J + j)

/-- **C67 (totally-constrained).** Each member of a batch is the gravity model evaluated with that
member's own attraction vector and parameters, whatever the number of sweeps. -/
theorem C67_totally_batch (a : SimArgs) (t s i j : ℕ) (hI : 0 < a.I) (hJ : 0 < a.J)
    (hG : 0 ≤ a.grandTotal) :
    a.flowT t s i j = a.grandTotal * Spec.share a.I a.J (a.alpha (t * a.sweep + s))
      (a.beta (t * a.sweep + s)) (attractionOf a t s) a.cost i j := by
  rw [a.flowT_eq hI hJ hG]
  simp only [Spec.share, Spec.weight, SimArgs.utilityT, SimArgs.xAt, SimArgs.alphaAt,
    SimArgs.betaAt, SimArgs.costRepeated, attractionOf]
  rw [mul_comm]
  congr 2
  · rw [mul_comm, mul_comm (a.cost i j)]
  · refine sum_congr rfl fun h _ => sum_congr rfl fun k _ => ?_
    rw [mul_comm, mul_comm (a.cost h k)]

/-- **C67 (production-constrained, exact behaviour).** Origin `i` of sweep `s` is evaluated with
the cost row `(s*I+i)/sweep`, not with its own row `i`. -/
theorem C67_production_reads_row (a : SimArgs) (t s i j : ℕ) (hi : i < a.I) (hj : j < a.J)
    (hd : 0 ≤ a.demand i) (hG : 0 ≤ a.grandTotal) :
    a.flowP t s i j = a.grandTotal * (a.demand i * Spec.choice a.J (a.alpha (t * a.sweep + s))
      (a.beta (t * a.sweep + s)) (attractionOf a t s)
      (fun _ k => a.cost ((s * a.I + i) / a.sweep) k) i j) := by
  have hJ : 0 < a.J := by omega
  rw [a.flowP_eq hi hJ hd hG]
  have hu : ∀ k < a.J, Real.exp (a.utilityP t s i k) =
      Spec.weight (a.alpha (t * a.sweep + s)) (a.beta (t * a.sweep + s)) (attractionOf a t s)
        (fun _ k => a.cost ((s * a.I + i) / a.sweep) k) i k := by
    intro k hk
    simp only [SimArgs.utilityP, SimArgs.xAt, SimArgs.alphaAt, SimArgs.betaAt,
      a.costTiled_eq hk, Spec.weight, attractionOf]
    rw [mul_comm, mul_comm (a.cost _ k)]
  rw [hu j hj, sum_congr rfl (fun k hk => hu k (mem_range.1 hk)), mul_comm]
  rfl

/-- **C67 (production-constrained), partial.** With one sweep (or one origin) each member is the
gravity model evaluated with its own data. -/
theorem C67_production_partial (a : SimArgs) (t s i j : ℕ) (hi : i < a.I) (hj : j < a.J)
    (hs : s < a.sweep) (h1 : a.sweep = 1 ∨ a.I = 1)
    (hd : 0 ≤ a.demand i) (hG : 0 ≤ a.grandTotal) :
    a.flowP t s i j = a.grandTotal * (a.demand i * Spec.choice a.J (a.alpha (t * a.sweep + s))
      (a.beta (t * a.sweep + s)) (attractionOf a t s) a.cost i j) := by
  rw [C67_production_reads_row a t s i j hi hj hd hG]
  have hrow : (s * a.I + i) / a.sweep = i := by
    rcases h1 with h1 | h1
    · have : s = 0 := by omega
      rw [h1, this]; simp
    · have : i = 0 := by omega
      rw [h1, this]; simpa using Nat.div_eq_of_lt hs
  rw [hrow]
  rfl

example : (1 : ℕ) < 2 ∧ ∃ a : SimArgs, a.sweep = 1 ∧ a.I = 2 ∧ a.J = 2 :=
  ⟨by decide, { demoSim with sweep := 1 }, rfl, rfl, rfl⟩

/-- **C67 is false for the production-constrained model with several sweeps**: the second origin
of the first sweep is evaluated with the first origin's costs. -/
theorem C67_production_batch_false :
    ¬ ∀ (a : SimArgs) (t s i j : ℕ), i < a.I → j < a.J → s < a.sweep → 0 < a.demand i →
      0 < a.grandTotal →
      a.flowP t s i j = a.grandTotal * (a.demand i * Spec.choice a.J
        (a.alpha (t * a.sweep + s)) (a.beta (t * a.sweep + s)) (attractionOf a t s)
        a.cost i j) := by
  intro h
  have h1 := h demoSim 0 0 1 1 (by decide) (by decide) (by decide) (by norm_num [demoSim])
    (by norm_num [demoSim])
  rw [C67_production_reads_row demoSim 0 0 1 1 (by decide) (by decide) (by norm_num [demoSim])
    (by norm_num [demoSim])] at h1
  have h2 : (2 : ℝ)⁻¹ = Real.exp (-1) / (1 + Real.exp (-1)) := by
    simpa [demoSim, Spec.choice, Spec.weight, attractionOf, sum_range_succ] using h1
  have hp := Real.exp_pos (-1)
  have hlt : Real.exp (-1) < 1 := by rw [Real.exp_lt_one_iff]; norm_num
  rw [inv_eq_one_div, div_eq_div_iff (by norm_num) (by positivity)] at h2
  linarith

/-! ## C68: destination demand -/

/-- **C68, partial.** With at least two origins, `intensity_demand` returns one number per
destination, the column sums of the intensity. -/
theorem C68_demand_partial (I J : ℕ) (flow : ℕ → ℕ → ℝ) (hI : 2 ≤ I) :
    intensityDemand I J flow = (List.range J).map fun j => ∑ i ∈ range I, flow i j := by
  unfold intensityDemand
  rw [if_neg (by omega)]
  split
  · next h => subst h; rfl
  · rfl

/-- **C68.** What is returned always adds up to the total intensity. -/
theorem C68_demand_total (I J : ℕ) (flow : ℕ → ℕ → ℝ) :
    (intensityDemand I J flow).sum = ∑ i ∈ range I, ∑ j ∈ range J, flow i j := by
  unfold intensityDemand
  split
  · next h => subst h; simp
  · split
    · next h => subst h; simp
    · rw [sum_comm, ← List.sum_toFinset _ List.nodup_range, List.toFinset_range]

/-- **C68 is false for a single origin with several destinations**: one number comes back, the
total, instead of one per destination. -/
theorem C68_single_origin_false :
    ¬ ∀ (I J : ℕ) (flow : ℕ → ℕ → ℝ), 0 < I →
      (intensityDemand I J flow).length = J := by
  intro h
  have := h 1 2 (fun _ _ => 0) (by decide)
  simp [intensityDemand] at this

example : (intensityDemand 2 3 (fun i j => (i : ℝ) + j)).length = 3 := by
  rw [C68_demand_partial 2 3 _ (by decide)]; simp

/-! ## C69: the potential and the simulated dynamics describe the same model -/

/-- Expected (normalised) demand of destination `j` in the totally-constrained model. -/
noncomputable def demandT (p : PotParams) (I J : ℕ) (cost : ℕ → ℕ → ℝ) (x : ℕ → ℝ)
    (j : ℕ) : ℝ :=
  ∑ i ∈ range I, Spec.share I J p.alpha p.beta x cost i j

/-- Expected (normalised) demand of destination `j` in the production-constrained model. -/
noncomputable def demandP (p : PotParams) (I J : ℕ) (dem : ℕ → ℝ) (cost : ℕ → ℕ → ℝ)
    (x : ℕ → ℝ) (j : ℕ) : ℝ :=
  ∑ i ∈ range I, dem i * Spec.choice J p.alpha p.beta x cost i j

/-- **C69 (totally-constrained).** The partial derivative of the potential with respect to the log
attraction of `j` is `(2ε/σ²)(κ·attraction − δ − demand)`. -/
theorem C69_gradient (p : PotParams) (I J : ℕ) (cost : ℕ → ℕ → ℝ) (x : ℕ → ℝ) (j : ℕ)
    (hI : 0 < I) (hj : j < J) (ha : p.alpha ≠ 0) :
    HasDerivAt (fun v => sdePotT p I J cost (Function.update x j v))
      (2 * p.epsilon / p.sigma ^ 2 *
        (p.kappa * Real.exp (x j) - p.delta - demandT p I J cost x j)) (x j) := by
  have h1 := (hasDerivAt_lse2 I J p.alpha p.beta cost x hI hj).const_mul (-(1 / p.alpha))
  have h2 := (hasDerivAt_sum_exp J x hj).const_mul p.kappa
  have h3 := (hasDerivAt_sum_x J x hj).const_mul p.delta
  have h := (h1.add (h2.sub h3)).mul_const (2 * p.epsilon / p.sigma ^ 2)
  refine h.congr_deriv ?_
  have hd : -(1 / p.alpha) * ((∑ i ∈ range I,
      p.alpha * Real.exp (p.alpha * x j - p.beta * cost i j)) /
      ∑ h ∈ range I, ∑ k ∈ range J, Real.exp (p.alpha * x k - p.beta * cost h k)) =
      -demandT p I J cost x j := by
    unfold demandT Spec.share Spec.weight
    rw [← mul_sum, ← sum_div]
    field_simp
  rw [hd]
  ring

/-- **C69 (totally-constrained).** The deterministic part of a simulated step is minus half the
squared noise times the attraction times the potential gradient: the simulator descends exactly
the potential the sampler uses. -/
theorem C69_same_dynamics (p : PotParams) (dt : ℝ) (I J : ℕ) (cost : ℕ → ℕ → ℝ) (x : ℕ → ℝ)
    (j : ℕ) (grad : ℝ) (hI : 0 < I) (hj : j < J) (ha : p.alpha ≠ 0) (hs : p.sigma ≠ 0)
    (hg : HasDerivAt (fun v => sdePotT p I J cost (Function.update x j v)) grad (x j)) :
    runSingle p dt I (Spec.share I J p.alpha p.beta x cost) (fun _ => 0)
        (fun k => Real.exp (x k)) j =
      Real.exp (x j) - Real.exp (x j) * (p.sigma ^ 2 / 2 * grad) * dt := by
  have := hg.unique (C69_gradient p I J cost x j hI hj ha)
  subst this
  unfold runSingle demandT
  field_simp
  ring

/-- **C69 (totally-constrained).** Without noise, a positive attraction vector is a fixed point of
the simulation exactly when `κ·attraction = demand + δ` everywhere, i.e. when the potential
gradient vanishes. -/
theorem C69_fixed_point (p : PotParams) (dt : ℝ) (I : ℕ) (flow : ℕ → ℕ → ℝ) (w : ℕ → ℝ)
    (j : ℕ) (hw : 0 < w j) (hdt : dt ≠ 0) (he : p.epsilon ≠ 0) :
    runSingle p dt I flow (fun _ => 0) w j = w j ↔
      p.kappa * w j = (∑ i ∈ range I, flow i j) + p.delta := by
  unfold runSingle
  constructor
  · intro h
    have : w j * p.epsilon * dt *
        ((∑ i ∈ range I, flow i j) - p.kappa * w j + p.delta) = 0 := by linarith
    have h0 : w j * p.epsilon * dt ≠ 0 := by
      simp [hw.ne', hdt, he]
    have := (mul_eq_zero.1 this).resolve_left h0
    linarith
  · intro h
    rw [h]; ring

/-- **C93.** The random part of a simulated step: the draw is multiplied by the attraction, the noise level and
`√(dt / 2π)`. -/
theorem C93_noise (p : PotParams) (dt : ℝ) (I : ℕ) (flow : ℕ → ℕ → ℝ) (noise w : ℕ → ℝ) (j : ℕ) (hdt : 0 < dt) :
    runSingle p dt I flow noise w j - runSingle p dt I flow (fun _ => 0) w j =
      w j * p.sigma * Real.sqrt (dt / (2 * Real.pi)) * noise j := by
  have hp : 0 < 2 * Real.pi := by positivity
  have h1 : Real.sqrt (2 * Real.pi * dt) = Real.sqrt (2 * Real.pi) * Real.sqrt dt := Real.sqrt_mul hp.le _
  have h2 : Real.sqrt (dt / (2 * Real.pi)) = Real.sqrt dt / Real.sqrt (2 * Real.pi) := Real.sqrt_div hdt.le _
  have h3 : Real.sqrt dt * Real.sqrt dt = dt := Real.mul_self_sqrt hdt.le
  have h4 : Real.sqrt dt ≠ 0 := (Real.sqrt_pos.2 hdt).ne'
  have h5 : Real.sqrt (2 * Real.pi) ≠ 0 := (Real.sqrt_pos.2 hp).ne'
  unfold runSingle
  rw [h1, h2]
  have e : dt / (Real.sqrt (2 * Real.pi) * Real.sqrt dt) = Real.sqrt dt / Real.sqrt (2 * Real.pi) := by
    rw [div_eq_div_iff (by positivity) h5]
    calc dt * Real.sqrt (2 * Real.pi) = (Real.sqrt dt * Real.sqrt dt) * Real.sqrt (2 * Real.pi) := by rw [h3]
      _ = _ := by ring
  calc _ = w j * p.sigma * (dt / (Real.sqrt (2 * Real.pi) * Real.sqrt dt)) * noise j := by field_simp; ring
    _ = _ := by rw [e]

/-- **C93 is false**: an Euler step of the stochastic differential equation multiplies the draw by
`√dt` – the simulated noise is too small by the factor `√(2π)`. -/
theorem C93_noise_false : ∃ (p : PotParams) (dt : ℝ) (flow : ℕ → ℕ → ℝ) (noise w : ℕ → ℝ), 0 < dt ∧ 0 < p.sigma ∧
    runSingle p dt 1 flow noise w 0 - runSingle p dt 1 flow (fun _ => 0) w 0 ≠
      w 0 * p.sigma * Real.sqrt dt * noise 0 := by
  refine ⟨{ alpha := 1, beta := 0, delta := 0, kappa := 0, sigma := 1, epsilon := 1 }, 1, fun _ _ => 0, fun _ => 1, fun _ => 1,
    one_pos, one_pos, ?_⟩
  rw [C93_noise _ _ _ _ _ _ _ one_pos]
  simp only [one_mul, mul_one, Real.sqrt_one, ne_eq]
  intro h
  have h6 : Real.sqrt (1 / (2 * Real.pi)) < 1 := by
    rw [Real.sqrt_lt' one_pos, one_pow, div_lt_one (by positivity)]
    nlinarith [Real.two_le_pi]
  rw [h] at h6
  exact lt_irrefl _ h6

/-- The two-destination instance used to refute the production-constrained version. -/
def demoPot : PotParams :=
  { alpha := 1, beta := 0, delta := 0, kappa := 0, sigma := 1, epsilon := 1 }

/-- **C69 (production-constrained, exact behaviour).** The potential cannot be evaluated when the
numbers of origins and destinations differ. -/
theorem C69_production_raises (p : PotParams) (I J : ℕ) (dem : ℕ → ℝ) (cost : ℕ → ℕ → ℝ)
    (x : ℕ → ℝ) (h : I ≠ J) : sdePotP p I J dem cost x = none := by
  unfold sdePotP
  rw [if_neg h]

/-- **C69 (production-constrained, exact behaviour).** On a square table the potential's gradient
contains the *origin* demand of index `j`, so it does not depend on the costs or on any other
attraction. -/
theorem C69_production_gradient (p : PotParams) (J : ℕ) (dem : ℕ → ℝ) (cost : ℕ → ℕ → ℝ)
    (x : ℕ → ℝ) (j : ℕ) (hj : j < J) (ha : p.alpha ≠ 0) :
    HasDerivAt (fun v => (sdePotP p J J dem cost (Function.update x j v)).getD 0)
      (2 * p.epsilon / p.sigma ^ 2 *
        (p.kappa * Real.exp (x j) - p.delta - dem j)) (x j) := by
  have h0 := HasDerivAt.fun_sum (u := range J)
    (A := fun k v => dem k * lse J (fun i =>
      p.alpha * Function.update x j v k - p.beta * cost i k))
    (A' := fun k => dem k * (if k = j then p.alpha else 0)) (x := x j)
    (fun k _ => (hasDerivAt_lse_col J p.alpha p.beta cost x j k (by omega)).const_mul (dem k))
  have h1 := h0.const_mul (-(1 / p.alpha))
  have h2 := (hasDerivAt_sum_exp J x hj).const_mul p.kappa
  have h3 := (hasDerivAt_sum_x J x hj).const_mul p.delta
  have h := (h1.add (h2.sub h3)).mul_const (2 * p.epsilon / p.sigma ^ 2)
  have hf : (fun v => (sdePotP p J J dem cost (Function.update x j v)).getD 0) =
      fun v => (-(1 / p.alpha) * (∑ k ∈ range J, dem k * lse J (fun i =>
          p.alpha * Function.update x j v k - p.beta * cost i k)) +
        (p.kappa * (∑ k ∈ range J, Real.exp (Function.update x j v k)) -
          p.delta * ∑ k ∈ range J, Function.update x j v k)) *
        (2 * p.epsilon / p.sigma ^ 2) := by
    funext v
    simp [sdePotP]
  rw [hf]
  refine h.congr_deriv ?_
  simp only [mul_ite, mul_zero, sum_ite_eq', mem_range, hj, if_true]
  field_simp
  ring

/-- **C69 is false for the production-constrained model**: the gradient of the potential is not
`(2ε/σ²)(κ·attraction − δ − demand)`. -/
theorem C69_production_false :
    ¬ ∀ (p : PotParams) (J : ℕ) (dem : ℕ → ℝ) (cost : ℕ → ℕ → ℝ) (x : ℕ → ℝ) (j : ℕ),
      j < J → p.alpha ≠ 0 →
      HasDerivAt (fun v => (sdePotP p J J dem cost (Function.update x j v)).getD 0)
        (2 * p.epsilon / p.sigma ^ 2 *
          (p.kappa * Real.exp (x j) - p.delta - demandP p J J dem cost x j)) (x j) := by
  intro h
  have h1 := h demoPot 2 (fun i => i) (fun _ _ => 0) (fun _ => 0) 0 (by decide)
    (by norm_num [demoPot])
  have h2 := C69_production_gradient demoPot 2 (fun i => i) (fun _ _ => 0) (fun _ => 0) 0
    (by decide) (by norm_num [demoPot])
  have h3 := h1.unique h2
  norm_num [demoPot, demandP, Spec.choice, Spec.weight, sum_range_succ] at h3

example : ∃ grad : ℝ, HasDerivAt (fun v => sdePotT demoPot 2 2 (fun _ _ => 0)
    (Function.update (fun _ => 0) 0 v)) grad 0 :=
  ⟨_, C69_gradient demoPot 2 2 (fun _ _ => 0) (fun _ => 0) 0 (by decide) (by decide)
    (by norm_num [demoPot])⟩

/-! ## C70: hand-written gradients -/

/-- **C70.** The gradient returned with the AIS prior potential is its gradient. -/
theorem C70_ais_gradient (p : PotParams) (J : ℕ) (x : ℕ → ℝ) (j : ℕ) (hj : j < J) :
    HasDerivAt (fun v => aisPot p J (Function.update x j v)) (aisGrad p J x j) (x j) := by
  have h1 := (hasDerivAt_sum_x J x hj).const_mul
    (-(2 / p.sigma ^ 2) * (p.delta + 1 / (J : ℝ)))
  have h2 := (hasDerivAt_sum_exp J x hj).const_mul (2 / p.sigma ^ 2 * p.kappa)
  have h := h1.add h2
  have hf : (fun v => aisPot p J (Function.update x j v)) = fun v =>
      -(2 / p.sigma ^ 2) * (p.delta + 1 / (J : ℝ)) * (∑ k ∈ range J, Function.update x j v k) +
        2 / p.sigma ^ 2 * p.kappa * ∑ k ∈ range J, Real.exp (Function.update x j v k) := by
    funext v; simp only [aisPot, mul_sum]
  rw [hf]
  exact h

/-- **C70.** The gradient returned with the data likelihood is its gradient with respect to the
predicted log attraction. -/
theorem C70_data_gradient (noiseVar : ℝ) (J : ℕ) (pred obs : ℕ → ℝ) (j : ℕ) (hj : j < J) :
    HasDerivAt (fun v => dataNll noiseVar J (Function.update pred j v) obs)
      (dataNllGrad noiseVar pred obs j) (pred j) := by
  have h1 : ∀ k ∈ range J, HasDerivAt
      (fun v => (Function.update pred j v k - obs k) * (Function.update pred j v k - obs k))
      (if k = j then 2 * (pred k - obs k) else 0) (pred j) := by
    intro k _
    have h := (hasDerivAt_update_apply pred j k).sub_const (obs k)
    have h2 := h.fun_mul h
    simp only [Function.update_eq_self] at h2
    refine h2.congr_deriv ?_
    by_cases hk : k = j
    · simp [hk]; ring
    · simp [hk]
  have h2 := (HasDerivAt.fun_sum h1).const_mul (0.5 * (1 / noiseVar))
  rw [sum_ite_eq', if_pos (mem_range.2 hj)] at h2
  refine h2.congr_deriv ?_
  unfold dataNllGrad
  ring

/-- **C70.** With `ε = 1` the AIS prior is the limit of the totally-constrained model as the
utilities vanish: its gradient is the potential gradient with demand `1/J`. -/
theorem C70_ais_is_flat_model (p : PotParams) (J : ℕ) (x : ℕ → ℝ) (j : ℕ) :
    aisGrad p J x j =
      2 * 1 / p.sigma ^ 2 * (p.kappa * Real.exp (x j) - p.delta - 1 / (J : ℝ)) := by
  unfold aisGrad; ring

example : HasDerivAt (fun v => aisPot demoPot 2 (Function.update (fun _ => (0 : ℝ)) 1 v))
    (aisGrad demoPot 2 (fun _ => 0) 1) 0 :=
  C70_ais_gradient demoPot 2 (fun _ => 0) 1 (by decide)

end GeNSIT
