import Verif.Sampler.Equilibrium
import Verif.Outputs.Sample

/-!
# Property theorem C191 (one equilibrium, production constrained)

The simulated dynamics of `/repo/gensit/physics_models/HarrisWilsonModel.py:329-406` (`run_single`, model `runSingle`) without noise, driven by the production constrained intensity with
`grand_total = 1.0` (`run`, lines 448-462; `log_flow_matrix`, `/repo/gensit/intensity_models/spatial_interaction_models/ProductionConstrained/__init__.py:79-189`, models `SimArgs.flowP`,
`simArgs`), and the production constrained potential as coded (`sde_pot`, lines 33-59, models `sdePotP`, `codeTargetP`).
-/

namespace GeNSIT

open Finset

/-- The intensity that `run` hands to `run_single`, production constrained: `log_intensity` at the logarithms of the current sizes with `grand_total = 1.0`, one sweep
(`HarrisWilsonModel.py:448-462`, `ProductionConstrained/__init__.py:79-189`). -/
noncomputable def productionFlow (p : PotParams) (I J : ℕ) (dem : ℕ → ℝ) (cost : ℕ → ℕ → ℝ) (w : ℕ → ℝ) (i k : ℕ) : ℝ :=
  (simArgs I J 1 dem cost (fun _ => p.alpha) (fun _ => p.beta) (fun _ k => Real.log (w k))).flowP 0 0 i k

/-- The same for the totally constrained intensity (`TotallyConstrained/__init__.py:76-184`). -/
noncomputable def totallyFlow (p : PotParams) (I J : ℕ) (cost : ℕ → ℕ → ℝ) (w : ℕ → ℝ) (i k : ℕ) : ℝ :=
  (simArgs I J 1 (fun _ => 0) cost (fun _ => p.alpha) (fun _ => p.beta) (fun _ k => Real.log (w k))).flowT 0 0 i k

/-- The shape of `log_intensity(...).squeeze()` for one iteration and one sweep: `(1, 1, origins, destinations)` without the ones (`HarrisWilsonModel.py:450-454`). -/
def squeezedShape (I J : ℕ) : List ℕ := [1, 1, I, J].filter (· ≠ 1)

/-- `demand_normalised`: the intensity summed along the first dimension that `squeeze` left (`logsumexp(…, dim = 0)`, which returns a single number as it is), reshaped to the sizes
(`(destinations, 1)`); `none` where `reshape` raises.  Entries are read in row-major order (`HarrisWilsonModel.py:382-390`). -/
noncomputable def demandNormalised (I J : ℕ) (flow : ℕ → ℕ → ℝ) : Option (ℕ → ℝ) :=
  let s := squeezedShape I J
  if s.tail.prod = J then some fun j => ∑ i ∈ range (s.headD 1), flow ((i * s.tail.prod + j) / J) ((i * s.tail.prod + j) % J) else none

/-! ### Specification -/

/-- Attractions that a noise-free simulated step leaves as they are, with the production constrained intensity for origin demands `dem`. -/
def Spec.AtRestP (p : PotParams) (dt : ℝ) (I J : ℕ) (dem : ℕ → ℝ) (cost : ℕ → ℕ → ℝ) (w : ℕ → ℝ) : Prop :=
  ∀ j < J, 0 < w j ∧
    runSingle p dt I (productionFlow p I J dem cost w) (fun _ => 0) w j = w j

/-- The Harris-Wilson potential of the production constrained model: the demand of every origin times the logarithm of its own total weight. -/
noncomputable def Spec.harrisWilson (p : PotParams) (I J : ℕ) (dem : ℕ → ℝ) (cost : ℕ → ℕ → ℝ) (x : Fin J → ℝ) : ℝ :=
  p.kappa * (∑ j, Real.exp (x j)) - p.delta * (∑ j, x j) - 1 / p.alpha * ∑ i ∈ range I, dem i * Real.log (∑ j : Fin J, Real.exp (p.alpha * x j - p.beta * cost i j))

/-! ### Lemmas -/

theorem simArgs_attraction (p : PotParams) (I J : ℕ) (dem : ℕ → ℝ) (cost : ℕ → ℕ → ℝ) (w : ℕ → ℝ) (k : ℕ) (hk : k < J) :
    attractionOf (simArgs I J 1 dem cost (fun _ => p.alpha) (fun _ => p.beta) (fun _ k => Real.log (w k))) 0 0 k = Real.log (w k) := by
  unfold attractionOf simArgs
  simp only [zero_mul, zero_add, Nat.mod_eq_of_lt hk]

theorem productionFlow_eq (p : PotParams) (I J : ℕ) (dem : ℕ → ℝ) (hO : ∀ i < I, 0 ≤ dem i) (cost : ℕ → ℕ → ℝ) (w : ℕ → ℝ) (j : ℕ) (hj : j < J) :
    (∑ i ∈ range I, productionFlow p I J dem cost w i j) = demandP p I J dem cost (fun k => Real.log (w k)) j := by
  unfold demandP
  refine sum_congr rfl fun i hi => ?_
  have hi' := mem_range.1 hi
  unfold productionFlow
  rw [C67_production_partial (simArgs I J 1 dem cost (fun _ => p.alpha) (fun _ => p.beta) (fun _ k => Real.log (w k))) 0 0 i j hi' hj one_pos (Or.inl rfl) (hO i hi') zero_le_one]
  change 1 * (dem i * _) = _
  rw [one_mul]
  congr 1
  unfold Spec.choice Spec.weight
  rw [show (simArgs I J 1 dem cost (fun _ => p.alpha) (fun _ => p.beta) (fun _ k => Real.log (w k))).J = J from rfl]
  rw [simArgs_attraction p I J dem cost w j hj, sum_congr rfl fun k hk => by rw [simArgs_attraction p I J dem cost w k (mem_range.1 hk)]]
  rfl

theorem totallyFlow_eq (p : PotParams) {I : ℕ} (hI : 0 < I) (J : ℕ) (cost : ℕ → ℕ → ℝ) (w : ℕ → ℝ) (j : ℕ) (hj : j < J) :
    (∑ i ∈ range I, totallyFlow p I J cost w i j) = demandT p I J cost (fun k => Real.log (w k)) j := by
  unfold demandT
  refine sum_congr rfl fun i hi => ?_
  unfold totallyFlow
  rw [C67_totally_batch (simArgs I J 1 (fun _ => 0) cost (fun _ => p.alpha) (fun _ => p.beta) (fun _ k => Real.log (w k))) 0 0 i j hI (by omega : 0 < J) zero_le_one]
  change 1 * Spec.share I J _ _ _ _ i j = _
  rw [one_mul]
  unfold Spec.share Spec.weight
  rw [simArgs_attraction p I J _ cost w j hj]
  refine congrArg _ ?_
  refine sum_congr rfl fun h _ => sum_congr rfl fun k hk => ?_
  rw [simArgs_attraction p I J _ cost w k (mem_range.1 hk)]
  rfl

theorem atRestP_iff (p : PotParams) (dt : ℝ) (hdt : dt ≠ 0) (he : p.epsilon ≠ 0) (I J : ℕ) (dem : ℕ → ℝ) (hO : ∀ i < I, 0 ≤ dem i) (cost : ℕ → ℕ → ℝ) (w : ℕ → ℝ) :
    Spec.AtRestP p dt I J dem cost w ↔ ∀ j < J, 0 < w j ∧ p.kappa * w j = demandP p I J dem cost (fun k => Real.log (w k)) j + p.delta := by
  unfold Spec.AtRestP
  refine forall₂_congr fun j hj => ?_
  refine and_congr_right fun hw => ?_
  rw [C69_fixed_point p dt I _ w j hw hdt he, productionFlow_eq p I J dem hO cost w j hj]

theorem weightSum_pos (a b : ℝ) {J : ℕ} (hJ : 0 < J) (x : ℕ → ℝ) (cost : ℕ → ℕ → ℝ) (i : ℕ) : 0 < ∑ k ∈ range J, Spec.weight a b x cost i k :=
  sum_pos (fun _ _ => Real.exp_pos _) ⟨0, mem_range.2 hJ⟩

theorem choice_pos (a b : ℝ) {J : ℕ} (hJ : 0 < J) (x : ℕ → ℝ) (cost : ℕ → ℕ → ℝ) (i j : ℕ) : 0 < Spec.choice J a b x cost i j :=
  div_pos (Real.exp_pos _) (weightSum_pos a b hJ x cost i)

theorem choice_sum (a b : ℝ) {J : ℕ} (hJ : 0 < J) (x : ℕ → ℝ) (cost : ℕ → ℕ → ℝ) (i : ℕ) : ∑ j ∈ range J, Spec.choice J a b x cost i j = 1 := by
  unfold Spec.choice
  rw [← sum_div, div_self (weightSum_pos a b hJ x cost i).ne']

theorem demandP_sum (p : PotParams) {I J : ℕ} (hJ : 0 < J) (dem : ℕ → ℝ) (cost : ℕ → ℕ → ℝ) (x : ℕ → ℝ) : ∑ j ∈ range J, demandP p I J dem cost x j = ∑ i ∈ range I, dem i := by
  unfold demandP
  rw [sum_comm]
  refine sum_congr rfl fun i _ => ?_
  rw [← mul_sum, choice_sum _ _ hJ, mul_one]

theorem demandP_nonneg (p : PotParams) {I J : ℕ} (hJ : 0 < J) (dem : ℕ → ℝ) (hO : ∀ i < I, 0 ≤ dem i) (cost : ℕ → ℕ → ℝ) (x : ℕ → ℝ) (j : ℕ) : 0 ≤ demandP p I J dem cost x j :=
  sum_nonneg fun i hi => mul_nonneg (hO i (mem_range.1 hi)) (choice_pos _ _ hJ x cost i j).le

/-- `e^u` and `e^{(α-1)u}` move in opposite directions. -/
theorem opposite_moves (a u v : ℝ) (ha1 : a ≤ 1) : 0 ≤ (Real.exp u - Real.exp v) * (Real.exp ((a - 1) * v) - Real.exp ((a - 1) * u)) := by
  rcases le_total u v with h | h
  · refine mul_nonneg_of_nonpos_of_nonpos (sub_nonpos.2 (Real.exp_le_exp.2 h)) (sub_nonpos.2 (Real.exp_le_exp.2 ?_))
    exact mul_le_mul_of_nonpos_left h (by linarith)
  · refine mul_nonneg (sub_nonneg.2 (Real.exp_le_exp.2 h)) (sub_nonneg.2 (Real.exp_le_exp.2 ?_))
    exact mul_le_mul_of_nonpos_left h (by linarith)

theorem opposite_moves_eq (a u v : ℝ) (ha1 : a < 1) (h : (Real.exp u - Real.exp v) * (Real.exp ((a - 1) * v) - Real.exp ((a - 1) * u)) = 0) : u = v := by
  rcases mul_eq_zero.1 h with h | h
  · exact Real.exp_injective (sub_eq_zero.1 h)
  · have := Real.exp_injective (sub_eq_zero.1 h)
    exact (mul_left_cancel₀ (by linarith : a - 1 ≠ 0) this).symm

/-- The covariance, written over pairs. -/
theorem covariance_pairs (s : Finset ℕ) (q f g : ℕ → ℝ) :
    ∑ j ∈ s, ∑ k ∈ s, q j * q k * ((f j - f k) * (g k - g j)) = 2 * ((∑ j ∈ s, q j * f j) * (∑ j ∈ s, q j * g j) - (∑ j ∈ s, q j) * ∑ j ∈ s, q j * (f j * g j)) := by
  have h : ∀ j k, q j * q k * ((f j - f k) * (g k - g j)) = q j * f j * (q k * g k) + q j * g j * (q k * f k) - q j * (f j * g j) * q k - q j * (q k * (f k * g k)) := by
    intro j k
    ring
  simp only [h, sum_add_distrib, sum_sub_distrib, ← sum_mul_sum]
  ring

/-- Chances reweighted by `e^{αu}`: the mean of `e^u` under the old ones times the mean of `e^{-u}` under the new ones is at least one. -/
theorem means_product (a : ℝ) (ha1 : a ≤ 1) (s : Finset ℕ) (q u : ℕ → ℝ) (hq : ∀ j ∈ s, 0 < q j) (hq1 : ∑ j ∈ s, q j = 1) :
    (∑ j ∈ s, q j * Real.exp (a * u j)) ≤ (∑ j ∈ s, q j * Real.exp (u j)) * ∑ j ∈ s, q j * Real.exp ((a - 1) * u j) ∧
    (a < 1 → (∑ j ∈ s, q j * Real.exp (a * u j)) = (∑ j ∈ s, q j * Real.exp (u j)) * (∑ j ∈ s, q j * Real.exp ((a - 1) * u j)) → ∀ j ∈ s, ∀ k ∈ s, u j = u k) := by
  have h := covariance_pairs s q (fun j => Real.exp (u j)) fun j => Real.exp ((a - 1) * u j)
  have he : ∀ j, Real.exp (u j) * Real.exp ((a - 1) * u j) = Real.exp (a * u j) := by
    intro j
    rw [← Real.exp_add]
    congr 1
    ring
  simp only [he, hq1, one_mul] at h
  have hpos : ∀ j ∈ s, ∀ k ∈ s, 0 ≤ q j * q k * ((Real.exp (u j) - Real.exp (u k)) * (Real.exp ((a - 1) * u k) - Real.exp ((a - 1) * u j))) := by
    intro j hj k hk
    exact mul_nonneg (mul_pos (hq j hj) (hq k hk)).le (opposite_moves a _ _ ha1)
  constructor
  · have := sum_nonneg fun j hj => sum_nonneg fun k hk => hpos j hj k hk
    linarith
  · intro ha heq j hj k hk
    rw [← heq, sub_self, mul_zero] at h
    have h1 := (sum_eq_zero_iff_of_nonneg fun j hj => sum_nonneg fun k hk => hpos j hj k hk).1 h j hj
    have h2 := (sum_eq_zero_iff_of_nonneg fun k hk => hpos j hj k hk).1 h1 k hk
    have h3 := (mul_eq_zero.1 h2).resolve_left (mul_pos (hq j hj) (hq k hk)).ne'
    exact opposite_moves_eq a _ _ ha h3

theorem two_le_of_product {A B : ℝ} (hA : 0 < A) (h : 1 ≤ A * B) : 2 ≤ A + B := by
  have hB : 0 < B := pos_of_mul_pos_of_pos_left' hA h
  nlinarith [sq_nonneg (A - B)]
where
  pos_of_mul_pos_of_pos_left' {A B : ℝ} (hA : 0 < A) (h : 1 ≤ A * B) : 0 < B := by
    by_contra hB
    have := mul_nonpos_of_nonneg_of_nonpos hA.le (not_lt.1 hB)
    linarith

/-- Choices before and after the log attractions move by `u`. -/
theorem choice_moves (a b : ℝ) (ha1 : a ≤ 1) {J : ℕ} (hJ : 0 < J) (x y : ℕ → ℝ) (cost : ℕ → ℕ → ℝ) (i : ℕ) :
    2 ≤ (∑ j ∈ range J, Spec.choice J a b x cost i j * Real.exp (y j - x j)) + ∑ j ∈ range J, Spec.choice J a b y cost i j * Real.exp (x j - y j) ∧
    (a < 1 → (∑ j ∈ range J, Spec.choice J a b x cost i j * Real.exp (y j - x j)) + (∑ j ∈ range J, Spec.choice J a b y cost i j * Real.exp (x j - y j)) = 2 → ∀ j < J, x j = y j) := by
  set q : ℕ → ℝ := fun j => Spec.choice J a b x cost i j with hqdef
  have hq : ∀ j ∈ range J, 0 < q j := fun j _ => choice_pos a b hJ x cost i j
  have hq1 : ∑ j ∈ range J, q j = 1 := choice_sum a b hJ x cost i
  set u : ℕ → ℝ := fun j => y j - x j with hu
  obtain ⟨hle, heq⟩ := means_product a ha1 (range J) q u hq hq1
  set M : ℝ := ∑ j ∈ range J, q j * Real.exp (a * u j) with hM
  set A : ℝ := ∑ j ∈ range J, q j * Real.exp (u j) with hA
  set Q : ℝ := ∑ j ∈ range J, q j * Real.exp ((a - 1) * u j) with hQ
  have hMpos : 0 < M := sum_pos (fun j hj => mul_pos (hq j hj) (Real.exp_pos _)) ⟨0, mem_range.2 hJ⟩
  have hApos : 0 < A := sum_pos (fun j hj => mul_pos (hq j hj) (Real.exp_pos _)) ⟨0, mem_range.2 hJ⟩
  have hy : ∀ j, Spec.choice J a b y cost i j = q j * Real.exp (a * u j) / M := by
    intro j
    have hw : ∀ k, Spec.weight a b y cost i k = Spec.weight a b x cost i k * Real.exp (a * u k) := by
      intro k
      unfold Spec.weight
      rw [← Real.exp_add]
      congr 1
      simp only [hu]
      ring
    have hS := (weightSum_pos a b hJ x cost i).ne'
    have hMS : M = (∑ k ∈ range J, Spec.weight a b x cost i k * Real.exp (a * u k)) / ∑ k ∈ range J, Spec.weight a b x cost i k := by
      rw [hM, sum_div]
      refine sum_congr rfl fun k _ => ?_
      simp only [hqdef, Spec.choice]
      ring
    rw [hMS]
    simp only [hqdef]
    unfold Spec.choice
    simp only [hw]
    field_simp
  have hB : (∑ j ∈ range J, Spec.choice J a b y cost i j * Real.exp (x j - y j)) = Q / M := by
    rw [hQ, sum_div]
    refine sum_congr rfl fun j _ => ?_
    rw [hy j, div_mul_eq_mul_div, mul_assoc, ← Real.exp_add]
    congr 3
    simp only [hu]
    ring
  rw [hB]
  have hprod : 1 ≤ A * (Q / M) := by
    rw [← mul_div_assoc, le_div_iff₀ hMpos, one_mul]
    exact hle
  refine ⟨two_le_of_product hApos hprod, fun ha h2 => ?_⟩
  have hone : A = 1 := by
    have h3 : Q / M = 2 - A := by linarith
    rw [h3] at hprod
    nlinarith [sq_nonneg (A - 1)]
  have hQM : Q / M = 1 := by linarith
  have hconst := heq ha (by rw [hone, one_mul]; field_simp at hQM; linarith)
  intro j hj
  have hAu : A = Real.exp (u j) := by
    have : A = ∑ k ∈ range J, q k * Real.exp (u j) := sum_congr rfl fun k hk => by rw [hconst k hk j (mem_range.2 hj)]
    rw [this, ← sum_mul, hq1, one_mul]
  rw [hone] at hAu
  have h0 : u j = 0 := by
    have := congrArg Real.log hAu
    rw [Real.log_exp, Real.log_one] at this
    exact this.symm
  simp only [hu] at h0
  linarith

theorem two_sub_cosh_nonpos (u : ℝ) : 2 - Real.exp u - Real.exp (-u) ≤ 0 := by
  have h := two_le_of_product (Real.exp_pos u) (B := Real.exp (-u)) (by rw [← Real.exp_add, add_neg_cancel, Real.exp_zero])
  linarith

theorem eq_zero_of_two_sub (u : ℝ) (h : 2 - Real.exp u - Real.exp (-u) = 0) : u = 0 := by
  have h1 : Real.exp u * Real.exp (-u) = 1 := by rw [← Real.exp_add, add_neg_cancel, Real.exp_zero]
  have h2 : Real.exp (-u) = 2 - Real.exp u := by linarith
  rw [h2] at h1
  have h3 : (Real.exp u - 1) ^ 2 = 0 := by nlinarith
  have h4 : Real.exp u = 1 := by
    have := pow_eq_zero_iff (two_ne_zero) |>.1 h3
    linarith
  exact Real.exp_eq_one_iff u |>.1 h4

theorem demandP_moves (p : PotParams) {I J : ℕ} (hJ : 0 < J) (dem : ℕ → ℝ) (cost : ℕ → ℕ → ℝ) (z : ℕ → ℝ) (f : ℕ → ℝ) :
    ∑ j ∈ range J, demandP p I J dem cost z j * (1 - f j) = ∑ i ∈ range I, dem i * (1 - ∑ j ∈ range J, Spec.choice J p.alpha p.beta z cost i j * f j) := by
  unfold demandP
  simp only [sum_mul]
  rw [sum_comm]
  refine sum_congr rfl fun i _ => ?_
  have : (1 : ℝ) = ∑ j ∈ range J, Spec.choice J p.alpha p.beta z cost i j := (choice_sum _ _ hJ z cost i).symm
  rw [show dem i * (1 - ∑ j ∈ range J, Spec.choice J p.alpha p.beta z cost i j * f j) =
    dem i * ((∑ j ∈ range J, Spec.choice J p.alpha p.beta z cost i j) - ∑ j ∈ range J, Spec.choice J p.alpha p.beta z cost i j * f j) by rw [← this]]
  rw [← sum_sub_distrib, mul_sum]
  exact sum_congr rfl fun j _ => by ring

/-- The two balances, multiplied out and added. -/
theorem balances_sum (p : PotParams) {I J : ℕ} (hJ : 0 < J) (dem : ℕ → ℝ) (cost : ℕ → ℕ → ℝ) (x y : ℕ → ℝ)
    (hx : ∀ j < J, p.kappa * Real.exp (x j) = demandP p I J dem cost x j + p.delta) (hy : ∀ j < J, p.kappa * Real.exp (y j) = demandP p I J dem cost y j + p.delta) :
    (∑ j ∈ range J, p.delta * (2 - Real.exp (y j - x j) - Real.exp (-(y j - x j)))) +
      ∑ i ∈ range I, dem i * (2 - (∑ j ∈ range J, Spec.choice J p.alpha p.beta x cost i j * Real.exp (y j - x j)) -
        ∑ j ∈ range J, Spec.choice J p.alpha p.beta y cost i j * Real.exp (x j - y j)) = 0 := by
  have h : ∀ j ∈ range J, (demandP p I J dem cost x j + p.delta) * (1 - Real.exp (y j - x j)) + (demandP p I J dem cost y j + p.delta) * (1 - Real.exp (x j - y j)) = 0 := by
    intro j hj
    have hj' := mem_range.1 hj
    rw [← hx j hj', ← hy j hj']
    have e1 : Real.exp (x j) * Real.exp (y j - x j) = Real.exp (y j) := by rw [← Real.exp_add]; congr 1; ring
    have e2 : Real.exp (y j) * Real.exp (x j - y j) = Real.exp (x j) := by rw [← Real.exp_add]; congr 1; ring
    linear_combination (-p.kappa) * e1 - p.kappa * e2
  have hs := sum_eq_zero h
  have hx1 := demandP_moves p (I := I) hJ dem cost x fun j => Real.exp (y j - x j)
  have hy1 := demandP_moves p (I := I) hJ dem cost y fun j => Real.exp (x j - y j)
  have hsplit : ∑ j ∈ range J, ((demandP p I J dem cost x j + p.delta) * (1 - Real.exp (y j - x j)) + (demandP p I J dem cost y j + p.delta) * (1 - Real.exp (x j - y j))) =
      (∑ j ∈ range J, demandP p I J dem cost x j * (1 - Real.exp (y j - x j))) + (∑ j ∈ range J, demandP p I J dem cost y j * (1 - Real.exp (x j - y j))) +
      ∑ j ∈ range J, p.delta * (2 - Real.exp (y j - x j) - Real.exp (-(y j - x j))) := by
    rw [← sum_add_distrib, ← sum_add_distrib]
    refine sum_congr rfl fun j _ => ?_
    rw [neg_sub]
    ring
  rw [hsplit, hx1, hy1, ← sum_add_distrib] at hs
  rw [← hs, add_comm]
  congr 1
  exact sum_congr rfl fun i _ => by ring

theorem restP_unique (p : PotParams) (ha1 : p.alpha ≤ 1) (hd : 0 ≤ p.delta) (hk : 0 < p.kappa) (hc : p.alpha < 1 ∨ 0 < p.delta) {I J : ℕ} (dem : ℕ → ℝ)
    (hO : ∀ i < I, 0 ≤ dem i) (cost : ℕ → ℕ → ℝ) (x y : ℕ → ℝ) (hx : ∀ j < J, p.kappa * Real.exp (x j) = demandP p I J dem cost x j + p.delta)
    (hy : ∀ j < J, p.kappa * Real.exp (y j) = demandP p I J dem cost y j + p.delta) : ∀ j < J, x j = y j := by
  intro j hj
  have hJ : 0 < J := by omega
  have h := balances_sum p hJ dem cost x y hx hy
  have h1 : ∀ j ∈ range J, p.delta * (2 - Real.exp (y j - x j) - Real.exp (-(y j - x j))) ≤ 0 := fun j _ => mul_nonpos_of_nonneg_of_nonpos hd (two_sub_cosh_nonpos _)
  have h2 : ∀ i ∈ range I, dem i * (2 - (∑ j ∈ range J, Spec.choice J p.alpha p.beta x cost i j * Real.exp (y j - x j)) -
      ∑ j ∈ range J, Spec.choice J p.alpha p.beta y cost i j * Real.exp (x j - y j)) ≤ 0 := by
    intro i hi
    refine mul_nonpos_of_nonneg_of_nonpos (hO i (mem_range.1 hi)) ?_
    have := (choice_moves p.alpha p.beta ha1 hJ x y cost i).1
    linarith
  have hs1 := sum_nonpos h1
  have hs2 := sum_nonpos h2
  have hz1 : ∑ j ∈ range J, p.delta * (2 - Real.exp (y j - x j) - Real.exp (-(y j - x j))) = 0 := by linarith
  have hz2 : (∑ i ∈ range I, dem i * (2 - (∑ j ∈ range J, Spec.choice J p.alpha p.beta x cost i j * Real.exp (y j - x j)) -
      ∑ j ∈ range J, Spec.choice J p.alpha p.beta y cost i j * Real.exp (x j - y j))) = 0 := by linarith
  by_cases hdp : 0 < p.delta
  · have h3 := (sum_eq_zero_iff_of_nonpos h1).1 hz1 j (mem_range.2 hj)
    have h4 := eq_zero_of_two_sub _ ((mul_eq_zero.1 h3).resolve_left hdp.ne')
    linarith
  · have ha := hc.resolve_right hdp
    have hd0 : p.delta = 0 := le_antisymm (not_lt.1 hdp) hd
    have hex : ∃ i ∈ range I, 0 < dem i := by
      by_contra hno
      push Not at hno
      have h5 := hx j hj
      have h6 : demandP p I J dem cost x j ≤ 0 := sum_nonpos fun i hi => mul_nonpos_of_nonpos_of_nonneg (hno i hi) (choice_pos _ _ hJ x cost i j).le
      have h7 := mul_pos hk (Real.exp_pos (x j))
      linarith
    obtain ⟨i, hi, hpos⟩ := hex
    have h3 := (sum_eq_zero_iff_of_nonpos h2).1 hz2 i hi
    have h4 := (mul_eq_zero.1 h3).resolve_left hpos.ne'
    exact (choice_moves p.alpha p.beta ha1 hJ x y cost i).2 ha (by linarith) j hj

theorem atRestP_logs (p : PotParams) (dt : ℝ) (hdt : dt ≠ 0) (he : p.epsilon ≠ 0) (I J : ℕ) (dem : ℕ → ℝ) (hO : ∀ i < I, 0 ≤ dem i) (cost : ℕ → ℕ → ℝ) (w : ℕ → ℝ)
    (h : Spec.AtRestP p dt I J dem cost w) : ∀ j < J, p.kappa * Real.exp (Real.log (w j)) = demandP p I J dem cost (fun k => Real.log (w k)) j + p.delta := by
  intro j hj
  obtain ⟨h1, h2⟩ := (atRestP_iff p dt hdt he I J dem hO cost w).1 h j hj
  rw [Real.exp_log h1, h2]

/-- **C191 (at most one).**  For `alpha ≤ 1`, and `delta > 0` or `alpha < 1`, two equilibria of the production constrained dynamics are the same, for all demands, costs and `beta`. -/
theorem C191_unique (p : PotParams) (hp : Spec.Admitted p) (ha1 : p.alpha ≤ 1) (hc : p.alpha < 1 ∨ 0 < p.delta) (dt : ℝ) (hdt : dt ≠ 0) {I J : ℕ} (dem : ℕ → ℝ)
    (hO : ∀ i < I, 0 ≤ dem i) (cost : ℕ → ℕ → ℝ) (w w' : ℕ → ℝ) (hw : Spec.AtRestP p dt I J dem cost w) (hw' : Spec.AtRestP p dt I J dem cost w') : ∀ j < J, w j = w' j := by
  obtain ⟨_, hd, hk, he, _⟩ := hp
  intro j hj
  have h := restP_unique p ha1 hd hk hc dem hO cost _ _ (atRestP_logs p dt hdt he.ne' I J dem hO cost w hw) (atRestP_logs p dt hdt he.ne' I J dem hO cost w' hw') j hj
  exact Real.log_injOn_pos (hw j hj).1 (hw' j hj).1 h

/-- **C191 (what the equilibrium adds up to).**  Attractions at rest times `kappa` add up to the demands plus `delta` for each destination; each lies between `delta/kappa` and the total demand
plus `delta`, over `kappa`. -/
theorem C191_total (p : PotParams) (hp : Spec.Admitted p) (dt : ℝ) (hdt : dt ≠ 0) {I J : ℕ} (hJ : 0 < J) (dem : ℕ → ℝ) (hO : ∀ i < I, 0 ≤ dem i) (cost : ℕ → ℕ → ℝ) (w : ℕ → ℝ)
    (hw : Spec.AtRestP p dt I J dem cost w) :
    p.kappa * ∑ j ∈ range J, w j = (∑ i ∈ range I, dem i) + J * p.delta ∧ ∀ j < J, p.delta ≤ p.kappa * w j ∧ p.kappa * w j ≤ (∑ i ∈ range I, dem i) + p.delta := by
  obtain ⟨_, hd, hk, he, _⟩ := hp
  have h := (atRestP_iff p dt hdt he.ne' I J dem hO cost w).1 hw
  have h0 : ∀ j ∈ range J, 0 ≤ demandP p I J dem cost (fun k => Real.log (w k)) j := fun j _ => demandP_nonneg p hJ dem hO cost _ j
  constructor
  · rw [mul_sum, sum_congr rfl fun j hj => (h j (mem_range.1 hj)).2, sum_add_distrib, demandP_sum p hJ, sum_const, card_range, nsmul_eq_mul]
  · intro j hj
    rw [(h j hj).2]
    constructor
    · linarith [h0 j (mem_range.2 hj)]
    · have := single_le_sum h0 (mem_range.2 hj)
      rw [demandP_sum p hJ] at this
      linarith

/-! ### Existence -/

theorem harrisWilson_gradient (p : PotParams) (ha : p.alpha ≠ 0) (I : ℕ) {J : ℕ} (dem : ℕ → ℝ) (cost : ℕ → ℕ → ℝ) (x : Fin J → ℝ) (j : Fin J) :
    HasDerivAt (fun t => Spec.harrisWilson p I J dem cost (Function.update x j t)) (p.kappa * Real.exp (x j) - p.delta - demandP p I J dem cost (vecOf x) j) (x j) := by
  have hj := j.2
  have h1 : ∀ i ∈ range I, HasDerivAt (fun t => dem i * lse2 1 J (fun _ k => p.alpha * Function.update (vecOf x) (j : ℕ) t k - p.beta * cost i k))
      (dem i * (p.alpha * Spec.choice J p.alpha p.beta (vecOf x) cost i j)) (vecOf x j) := by
    intro i _
    have h := (hasDerivAt_lse2 1 J p.alpha p.beta (fun _ => cost i) (vecOf x) one_pos hj).const_mul (dem i)
    refine h.congr_deriv ?_
    simp only [sum_range_one]
    unfold Spec.choice Spec.weight
    ring
  have h2 := (HasDerivAt.fun_sum h1).const_mul (1 / p.alpha)
  have h3 := (hasDerivAt_sum_exp J (vecOf x) hj).const_mul p.kappa
  have h4 := (hasDerivAt_sum_x J (vecOf x) hj).const_mul p.delta
  have h5 := (h3.fun_sub h4).fun_sub h2
  rw [vecOf_fin] at h5
  have hf : (fun t => Spec.harrisWilson p I J dem cost (Function.update x j t)) = fun t =>
      p.kappa * (∑ k ∈ range J, Real.exp (Function.update (vecOf x) (j : ℕ) t k)) - p.delta * (∑ k ∈ range J, Function.update (vecOf x) (j : ℕ) t k) -
        1 / p.alpha * ∑ i ∈ range I, dem i * lse2 1 J (fun _ k => p.alpha * Function.update (vecOf x) (j : ℕ) t k - p.beta * cost i k) := by
    funext t
    unfold Spec.harrisWilson lse2
    simp only [sum_range_one, ← vecOf_update, Finset.sum_range (n := J), vecOf_fin]
  rw [hf]
  refine h5.congr_deriv ?_
  unfold demandP
  rw [mul_one]
  have : 1 / p.alpha * ∑ i ∈ range I, dem i * (p.alpha * Spec.choice J p.alpha p.beta (vecOf x) cost i j) = ∑ i ∈ range I, dem i * Spec.choice J p.alpha p.beta (vecOf x) cost i j := by
    rw [mul_sum]
    refine sum_congr rfl fun i _ => ?_
    field_simp
  rw [this]

theorem continuous_harrisWilson (p : PotParams) (I : ℕ) {J : ℕ} (hJ : 0 < J) (dem : ℕ → ℝ) (cost : ℕ → ℕ → ℝ) : Continuous (Spec.harrisWilson p I J dem cost) := by
  have hne : ∀ i, ∀ x : Fin J → ℝ, (∑ j : Fin J, Real.exp (p.alpha * x j - p.beta * cost i j)) ≠ 0 := fun i x => (sum_pos (fun j _ => Real.exp_pos _) ⟨⟨0, hJ⟩, mem_univ _⟩).ne'
  have h1 : ∀ i, Continuous fun x : Fin J → ℝ => Real.log (∑ j : Fin J, Real.exp (p.alpha * x j - p.beta * cost i j)) := fun i => Continuous.log (by fun_prop) (hne i)
  unfold Spec.harrisWilson
  fun_prop

theorem harrisWilson_minimum (p : PotParams) (hp : Spec.Admitted p) (hd : 0 < p.delta) (I : ℕ) {J : ℕ} (hJ : 0 < J) (dem : ℕ → ℝ) (hO : ∀ i < I, 0 ≤ dem i) (cost : ℕ → ℕ → ℝ) :
    ∃ x : Fin J → ℝ, ∀ y, Spec.harrisWilson p I J dem cost x ≤ Spec.harrisWilson p I J dem cost y := by
  obtain ⟨ha, _, hk, _, _⟩ := hp
  obtain ⟨C2, hC2⟩ := linear_le_exp (2 * p.delta) (p.kappa / 2) (by positivity) (by positivity)
  -- every origin takes its part of half of `κ Σ e^x`
  set O : ℝ := ∑ i ∈ range I, dem i with hOdef
  have hO0 : 0 ≤ O := sum_nonneg fun i hi => hO i (mem_range.1 hi)
  have hl : ∀ i, ∃ C : ℝ, ∀ x : Fin J → ℝ, 1 / p.alpha * Real.log (∑ j : Fin J, Real.exp (p.alpha * x j - p.beta * cost i j)) ≤ p.kappa / 2 / (O + 1) * (∑ j, Real.exp (x j)) + C := by
    intro i
    obtain ⟨C, hC⟩ := lse_upper p.alpha p.beta (p.kappa / 2 / (O + 1)) ha (by positivity) one_pos hJ fun _ => cost i
    refine ⟨C, fun x => ?_⟩
    have := hC x
    simpa only [univ_unique, sum_singleton] using this
  choose C hC using hl
  set D : ℝ := ∑ i ∈ range I, dem i * C i with hD
  have hsum : ∀ x : Fin J → ℝ, 1 / p.alpha * (∑ i ∈ range I, dem i * Real.log (∑ j : Fin J, Real.exp (p.alpha * x j - p.beta * cost i j))) ≤ p.kappa / 2 * (∑ j, Real.exp (x j)) + D := by
    intro x
    have hE : 0 ≤ ∑ j, Real.exp (x j) := sum_nonneg fun j _ => (Real.exp_pos _).le
    calc _ = ∑ i ∈ range I, dem i * (1 / p.alpha * Real.log (∑ j : Fin J, Real.exp (p.alpha * x j - p.beta * cost i j))) := by
          rw [mul_sum]
          exact sum_congr rfl fun i _ => by ring
      _ ≤ ∑ i ∈ range I, dem i * (p.kappa / 2 / (O + 1) * (∑ j, Real.exp (x j)) + C i) := sum_le_sum fun i hi => mul_le_mul_of_nonneg_left (hC i x) (hO i (mem_range.1 hi))
      _ = O / (O + 1) * (p.kappa / 2 * ∑ j, Real.exp (x j)) + D := by
          simp only [mul_add, sum_add_distrib, ← sum_mul]
          rw [← hOdef, ← hD]
          ring
      _ ≤ 1 * (p.kappa / 2 * ∑ j, Real.exp (x j)) + D := by
          have : O / (O + 1) ≤ 1 := by rw [div_le_one (by linarith)]; linarith
          have h2 : 0 ≤ p.kappa / 2 * ∑ j, Real.exp (x j) := by positivity
          linarith [mul_le_mul_of_nonneg_right this h2]
      _ = _ := by rw [one_mul]
  have hone : ∀ t : ℝ, p.delta * |t| - max C2 0 ≤ p.kappa / 2 * Real.exp t - p.delta * t := by
    intro t
    have h1 := hC2 t
    have h2 := le_max_left C2 0
    have h3 := le_max_right C2 0
    have h4 : 0 < p.kappa / 2 * Real.exp t := mul_pos (by positivity) (Real.exp_pos t)
    rcases le_total 0 t with h | h
    · rw [abs_of_nonneg h]; linarith
    · rw [abs_of_nonpos h]; linarith
  have hlow : ∀ x : Fin J → ℝ, p.delta * (∑ j, |x j|) - J * max C2 0 - D ≤ Spec.harrisWilson p I J dem cost x := by
    intro x
    have h1 := hsum x
    have h2 : ∑ j, (p.delta * |x j| - max C2 0) ≤ ∑ j, (p.kappa / 2 * Real.exp (x j) - p.delta * x j) := sum_le_sum fun j _ => hone (x j)
    rw [sum_sub_distrib, sum_sub_distrib, ← mul_sum, ← mul_sum, ← mul_sum, sum_const, card_univ, Fintype.card_fin, nsmul_eq_mul] at h2
    unfold Spec.harrisWilson
    linarith
  have hnorm : ∀ x : Fin J → ℝ, ‖x‖ ≤ ∑ j, |x j| := by
    intro x
    refine (pi_norm_le_iff_of_nonneg (sum_nonneg fun _ _ => abs_nonneg _)).2 fun j => ?_
    rw [Real.norm_eq_abs]
    exact single_le_sum (f := fun j => |x j|) (fun _ _ => abs_nonneg _) (mem_univ j)
  refine (continuous_harrisWilson p I hJ dem cost).exists_forall_le ?_
  refine Filter.tendsto_atTop_mono (f := fun x : Fin J → ℝ => p.delta * ‖x‖ + (-(J * max C2 0) - D)) (fun x => ?_) ?_
  · refine le_trans ?_ (hlow x)
    have h := mul_le_mul_of_nonneg_left (hnorm x) hd.le
    linarith
  · exact Filter.tendsto_atTop_add_const_right _ _ (Filter.Tendsto.const_mul_atTop hd (tendsto_norm_cocompact_atTop))

/-- **C191 (an equilibrium).**  With `delta > 0` there is one, for every `alpha`, `beta`, demands and costs: the attractions where the Harris-Wilson potential is smallest. -/
theorem C191_exists (p : PotParams) (hp : Spec.Admitted p) (hd : 0 < p.delta) (dt : ℝ) (hdt : dt ≠ 0) (I : ℕ) {J : ℕ} (hJ : 0 < J) (dem : ℕ → ℝ) (hO : ∀ i < I, 0 ≤ dem i) (cost : ℕ → ℕ → ℝ) :
    ∃ x : Fin J → ℝ, (∀ y, Spec.harrisWilson p I J dem cost x ≤ Spec.harrisWilson p I J dem cost y) ∧ Spec.AtRestP p dt I J dem cost fun k => Real.exp (vecOf x k) := by
  obtain ⟨x, hx⟩ := harrisWilson_minimum p hp hd I hJ dem hO cost
  obtain ⟨ha, _, hk, he, _⟩ := hp
  refine ⟨x, hx, ?_⟩
  rw [atRestP_iff p dt hdt he.ne' I J dem hO]
  intro j hj
  refine ⟨Real.exp_pos _, ?_⟩
  simp only [Real.log_exp]
  have h := harrisWilson_gradient p ha.ne' I dem cost x ⟨j, hj⟩
  have hmin : IsLocalMin (fun t => Spec.harrisWilson p I J dem cost (Function.update x ⟨j, hj⟩ t)) (x ⟨j, hj⟩) := by
    refine Filter.Eventually.of_forall fun t => ?_
    beta_reduce
    rw [Function.update_eq_self]
    exact hx _
  have h0 := hmin.hasDerivAt_eq_zero h
  have hv := vecOf_fin x ⟨j, hj⟩
  simp only at h0 hv
  rw [hv]
  linarith

/-- **C191 (the equilibrium is the minimum).**  For `alpha ≤ 1` and `delta > 0` the attractions at rest are where the Harris-Wilson potential is smallest. -/
theorem C191_minimum (p : PotParams) (hp : Spec.Admitted p) (hd : 0 < p.delta) (ha1 : p.alpha ≤ 1) (dt : ℝ) (hdt : dt ≠ 0) {I J : ℕ} (hJ : 0 < J) (dem : ℕ → ℝ) (hO : ∀ i < I, 0 ≤ dem i)
    (cost : ℕ → ℕ → ℝ) (w : ℕ → ℝ) (hw : Spec.AtRestP p dt I J dem cost w) (y : Fin J → ℝ) :
    Spec.harrisWilson p I J dem cost (fun j => Real.log (w j)) ≤ Spec.harrisWilson p I J dem cost y := by
  obtain ⟨x, hx, hr⟩ := C191_exists p hp hd dt hdt I hJ dem hO cost
  have h := C191_unique p hp ha1 (Or.inr hd) dt hdt dem hO cost _ _ hw hr
  have : (fun j : Fin J => Real.log (w j)) = x := by
    funext j
    rw [h j j.2]
    simp only [Real.log_exp, vecOf_fin]
  rw [this]
  exact hx y

/-! ### The potential as coded -/

/-- **C191 (the potential as coded).**  On a square table the gradient of `sde_pot` vanishes exactly where `kappa` times the attraction of destination `j` is the demand of *origin* `j` plus
`delta`: one point, whatever the costs, `alpha` and `beta`. -/
theorem C191_coded (p : PotParams) (hp : Spec.Admitted p) {J : ℕ} (dem : ℕ → ℝ) (cost : ℕ → ℕ → ℝ) (x : Fin J → ℝ) :
    (∀ j, HasDerivAt (fun t => codeTargetP p J dem cost (Function.update x j t)) 0 (x j)) ↔ ∀ j : Fin J, p.kappa * Real.exp (x j) = dem j + p.delta := by
  obtain ⟨ha, _, _, he, hs⟩ := hp
  have hg : 2 * p.epsilon / p.sigma ^ 2 ≠ 0 := by positivity
  have hgrad : ∀ j : Fin J, HasDerivAt (fun t => codeTargetP p J dem cost (Function.update x j t)) (2 * p.epsilon / p.sigma ^ 2 * (p.kappa * Real.exp (x j) - p.delta - dem j)) (x j) := by
    intro j
    have h := C69_production_gradient p J dem cost (vecOf x) j j.2 ha.ne'
    rw [vecOf_fin] at h
    unfold codeTargetP
    simp only [vecOf_update]
    exact h
  refine forall_congr' fun j => ?_
  constructor
  · intro h
    have h2 := (mul_eq_zero.1 (h.unique (hgrad j)).symm).resolve_left hg
    linarith
  · intro h
    refine (hgrad j).congr_deriv ?_
    rw [h]
    ring

/-! ### Shapes -/

/-- **C191 (the demand a step uses).**  With two origins or more, or one destination, the demand of a step is the intensity summed over origins (as `runSingle` has it). -/
theorem C191_demand (I J : ℕ) (hI : 0 < I) (hJ : 0 < J) (h : 1 < I ∨ J = 1) (flow : ℕ → ℕ → ℝ) :
    ∃ d, demandNormalised I J flow = some d ∧ ∀ j < J, d j = ∑ i ∈ range I, flow i j := by
  have h1 : ([1, 1, I, J].filter (· ≠ 1)) = (if I = 1 then [] else [I]) ++ if J = 1 then [] else [J] := by
    by_cases a : I = 1 <;> by_cases b : J = 1 <;> simp [a, b]
  unfold demandNormalised squeezedShape
  rw [h1]
  by_cases b : J = 1
  · subst b
    by_cases a : I = 1
    · subst a
      refine ⟨_, if_pos rfl, fun j hj => ?_⟩
      obtain rfl : j = 0 := by omega
      rfl
    · simp only [if_neg a]
      refine ⟨_, if_pos rfl, fun j hj => ?_⟩
      obtain rfl : j = 0 := by omega
      simp only [List.tail_cons, List.append_nil, if_pos, List.prod_nil, List.headD_cons, Nat.mul_one, Nat.add_zero, Nat.div_one, Nat.mod_one]
  · have a : I ≠ 1 := by omega
    simp only [if_neg a, if_neg b]
    refine ⟨_, if_pos (by simp), fun j hj => ?_⟩
    simp only [List.singleton_append, List.tail_cons, List.prod_cons, List.prod_nil, Nat.mul_one, List.headD_cons]
    refine sum_congr rfl fun i _ => ?_
    rw [Nat.mul_add_mod', Nat.mod_eq_of_lt hj, Nat.add_comm, Nat.add_mul_div_right _ _ hJ, Nat.div_eq_of_lt hj, Nat.zero_add]

/-- **C191 is false for one origin**: with several destinations the step raises, because `squeeze` drops the origins and the sum runs over the destinations. -/
theorem C191_single_origin_false (J : ℕ) (hJ : 1 < J) (flow : ℕ → ℕ → ℝ) : demandNormalised 1 J flow = none := by
  have h1 : ([1, 1, 1, J].filter (· ≠ 1)) = [J] := by simp [show J ≠ 1 by omega]
  unfold demandNormalised squeezedShape
  rw [h1]
  exact if_neg (by simpa using (by omega : 1 ≠ J))

example : ∃ d, demandNormalised 2 3 (fun i j => i + 10 * j) = some d ∧ d 1 = 21 := by
  obtain ⟨d, h, hd⟩ := C191_demand 2 3 (by norm_num) (by norm_num) (Or.inl (by norm_num)) fun i j => (i : ℝ) + 10 * j
  refine ⟨d, h, ?_⟩
  rw [hd 1 (by norm_num)]
  norm_num [sum_range_succ]

/-! ### Examples, the case `alpha > 1`, and the two equilibria of the code -/

/-- Two origins without costs, each with half of the demand: the demands of the totally constrained model. -/
theorem demandP_half (p : PotParams) {J : ℕ} (hJ : 0 < J) (x : ℕ → ℝ) (j : ℕ) : demandP p 2 J (fun _ => 1 / 2) (fun _ _ => 0) x j = demandT p 2 J (fun _ _ => 0) x j := by
  have h := (weightSum_pos p.alpha p.beta hJ x (fun _ _ => 0) 0).ne'
  have h2 : ∀ i k, Spec.weight p.alpha p.beta x (fun _ _ => 0) i k = Spec.weight p.alpha p.beta x (fun _ _ => 0) 0 k := fun _ _ => rfl
  unfold demandP demandT Spec.choice Spec.share
  simp only [sum_range_succ, sum_range_zero, zero_add, h2 1]
  field_simp
  ring

/-- **C191 is false for `alpha > 1`**: three equilibria. -/
theorem C191_false : ∃ p : PotParams, Spec.Admitted p ∧ 0 < p.delta ∧
    Spec.AtRestP p 1 2 2 (fun _ => 1 / 2) (fun _ _ => 0) (pairOf (3 / 5) (6 / 5)) ∧ Spec.AtRestP p 1 2 2 (fun _ => 1 / 2) (fun _ _ => 0) (pairOf (6 / 5) (3 / 5)) ∧
    Spec.AtRestP p 1 2 2 (fun _ => 1 / 2) (fun _ _ => 0) (pairOf (9 / 10) (9 / 10)) := by
  have he : demoSteep.epsilon ≠ 0 := by norm_num [demoSteep]
  have hiff : ∀ w, Spec.AtRestP demoSteep 1 2 2 (fun _ => 1 / 2) (fun _ _ => 0) w ↔ Spec.AtRest demoSteep 1 2 2 (fun _ _ => 0) w := by
    intro w
    rw [atRestP_iff demoSteep 1 one_ne_zero he 2 2 _ (fun _ _ => by norm_num), atRest_iff demoSteep 1 one_ne_zero he]
    simp only [demandP_half demoSteep (by norm_num : 0 < 2)]
  refine ⟨demoSteep, ⟨by norm_num [demoSteep], by norm_num [demoSteep], by norm_num [demoSteep], by norm_num [demoSteep], by norm_num [demoSteep]⟩, by norm_num [demoSteep], (hiff _).2 ?_, (hiff _).2 ?_, (hiff _).2 ?_⟩
  · exact demoSteep_rest _ _ (by norm_num) (by norm_num) (by norm_num) (by norm_num)
  · exact demoSteep_rest _ _ (by norm_num) (by norm_num) (by norm_num) (by norm_num)
  · exact demoSteep_rest _ _ (by norm_num) (by norm_num) (by norm_num) (by norm_num)

/-- Demands one and three, no costs. -/
noncomputable def demoDem (i : ℕ) : ℝ := if i = 0 then 1 else 3

theorem demoFlat_restP : Spec.AtRestP demoFlat 1 2 2 demoDem (fun _ _ => 0) fun _ => 3 := by
  rw [atRestP_iff demoFlat 1 one_ne_zero (by norm_num [demoFlat]) 2 2 demoDem (fun i _ => by unfold demoDem; split_ifs <;> norm_num)]
  intro j hj
  refine ⟨by norm_num, ?_⟩
  norm_num [demandP, Spec.choice, Spec.weight, demoFlat, demoDem, sum_range_succ, Real.exp_log]

/-- **C191 is false of the sampler**: the only stationary point of the coded potential is not at rest. -/
theorem C191_coded_false : ∃ (p : PotParams) (dem : ℕ → ℝ) (cost : ℕ → ℕ → ℝ), Spec.Admitted p ∧ p.alpha ≤ 1 ∧ 0 < p.delta ∧ (∀ i < 2, 0 ≤ dem i) ∧
    (∃ x : Fin 2 → ℝ, ∀ j, HasDerivAt (fun t => codeTargetP p 2 dem cost (Function.update x j t)) 0 (x j)) ∧
    ∀ x : Fin 2 → ℝ, (∀ j, HasDerivAt (fun t => codeTargetP p 2 dem cost (Function.update x j t)) 0 (x j)) → ¬ Spec.AtRestP p 1 2 2 dem cost fun k => Real.exp (vecOf x k) := by
  have hO : ∀ i < 2, 0 ≤ demoDem i := fun i _ => by unfold demoDem; split_ifs <;> norm_num
  refine ⟨demoFlat, demoDem, fun _ _ => 0, demoFlat_admitted, le_rfl, by norm_num [demoFlat], hO, ⟨fun j => Real.log (demoDem j + 1), ?_⟩, ?_⟩
  · rw [C191_coded demoFlat demoFlat_admitted]
    intro j
    have : 0 < demoDem j + 1 := by unfold demoDem; split_ifs <;> norm_num
    rw [Real.exp_log this]
    norm_num [demoFlat]
  · intro x hx hr
    rw [C191_coded demoFlat demoFlat_admitted] at hx
    have h1 := hx 0
    have h2 := C191_unique demoFlat demoFlat_admitted le_rfl (Or.inr (by norm_num [demoFlat])) 1 one_ne_zero demoDem hO (fun _ _ => 0) _ _ hr demoFlat_restP 0 (by norm_num)
    rw [show (0 : ℕ) = ((0 : Fin 2) : ℕ) from rfl, vecOf_fin] at h2
    rw [h2] at h1
    norm_num [demoFlat, demoDem] at h1

example (w : ℕ → ℝ) (hw : Spec.AtRestP demoFlat 1 2 2 demoDem (fun _ _ => 0) w) : w 1 = 3 :=
  C191_unique demoFlat demoFlat_admitted le_rfl (Or.inr (by norm_num [demoFlat])) 1 one_ne_zero demoDem (fun i _ => by unfold demoDem; split_ifs <;> norm_num) _ w _ hw demoFlat_restP 1 (by norm_num)

example (y : Fin 2 → ℝ) : Spec.harrisWilson demoFlat 2 2 demoDem (fun _ _ => 0) (fun _ => Real.log 3) ≤ Spec.harrisWilson demoFlat 2 2 demoDem (fun _ _ => 0) y :=
  C191_minimum demoFlat demoFlat_admitted (by norm_num [demoFlat]) le_rfl 1 one_ne_zero (by norm_num) demoDem (fun i _ => by unfold demoDem; split_ifs <;> norm_num) _ _ demoFlat_restP y

end GeNSIT
