import Verif.Sampler.Production
import Verif.Sim.Run
import Mathlib.Topology.Algebra.InfiniteSum.Real

/-!
# Property theorem C192 (the simulation settles)

`run` without noise (`/repo/gensit/physics_models/HarrisWilsonModel.py:408-480`, model `runFinal`) with the production and the totally constrained intensities (`productionFlow`, `totallyFlow`).
-/

namespace GeNSIT

open Finset

/-! ### Specification -/

/-- From every start within the bounds, for every positive step size up to some bound, the simulated attractions tend to `v` as the number of iterations grows. -/
def Spec.SettlesAt (p : PotParams) (I J : ℕ) (flow : (ℕ → ℝ) → ℕ → ℕ → ℝ) (lo hi : ℝ) (v : ℕ → ℝ) : Prop :=
  ∃ bound > 0, ∀ dt, 0 < dt → dt ≤ bound → ∀ w : ℕ → ℝ, (∀ j < J, lo ≤ w j ∧ w j ≤ hi) →
    ∀ j < J, Filter.Tendsto (fun n => runFinal p dt I flow (fun _ _ => 0) n w j) Filter.atTop (nhds (v j))

/-! ### Lemmas -/

/-- How far two vectors are apart. -/
noncomputable def apart (J : ℕ) (w v : ℕ → ℝ) : ℝ := ∑ j ∈ range J, (w j - v j) ^ 2

/-- The function that decreases along a run. -/
noncomputable def surplus (J : ℕ) (v w : ℕ → ℝ) : ℝ := ∑ j ∈ range J, (Real.log (w j / v j) + v j / w j - 1)

theorem surplus_nonneg (J : ℕ) (v w : ℕ → ℝ) (hv : ∀ j < J, 0 < v j) (hw : ∀ j < J, 0 < w j) : 0 ≤ surplus J v w := by
  refine sum_nonneg fun j hj => ?_
  have h1 := hv j (mem_range.1 hj)
  have h2 := hw j (mem_range.1 hj)
  have h := Real.log_le_sub_one_of_pos (x := v j / w j) (by positivity)
  have : Real.log (w j / v j) = -Real.log (v j / w j) := by rw [← Real.log_inv, inv_div]
  rw [this]
  linarith

/-- The growth rate of one step. -/
noncomputable def rate (p : PotParams) (D : (ℕ → ℝ) → ℕ → ℝ) (dt : ℝ) (w : ℕ → ℝ) (j : ℕ) : ℝ := dt * p.epsilon * (D w j - p.kappa * w j + p.delta)

theorem runStep_rate (p : PotParams) (dt : ℝ) (I J : ℕ) (flow : (ℕ → ℝ) → ℕ → ℕ → ℝ) (D : (ℕ → ℝ) → ℕ → ℝ) (hflow : ∀ w, ∀ j < J, ∑ i ∈ range I, flow w i j = D w j)
    (w : ℕ → ℝ) (j : ℕ) (hj : j < J) : runStep p dt I flow (fun _ => 0) w j = w j * (1 + rate p D dt w j) := by
  unfold runStep runSingle rate
  rw [hflow w j hj]
  ring

/-- A step stays within the bounds. -/
theorem step_box {k mu m W c w D d : ℝ} (hk : 0 < k) (hc : 0 ≤ c) (hD : 0 ≤ D) (hDmu : D + d ≤ k * mu) (hm : 0 < m) (hmd : k * m ≤ d) (hW : mu ≤ W)
    (hcW : c * k * W ≤ 1) (hmw : m ≤ w) (hwW : w ≤ W) : m ≤ w * (1 + c * (D - k * w + d)) ∧ w * (1 + c * (D - k * w + d)) ≤ W := by
  have hw : 0 < w := lt_of_lt_of_le hm hmw
  have hck : 0 ≤ c * k := mul_nonneg hc hk.le
  have hcw : c * k * w ≤ 1 := le_trans (mul_le_mul_of_nonneg_left hwW hck) hcW
  have hcw0 : 0 ≤ c * w := mul_nonneg hc hw.le
  constructor
  · -- `D + d ≥ d ≥ k m`
    have h1 : 0 ≤ c * w * (D + d - k * m) := mul_nonneg hcw0 (by linarith)
    have h2 : 0 ≤ (w - m) * (1 - c * k * w) := mul_nonneg (by linarith) (by linarith)
    nlinarith
  · have h1 : 0 ≤ c * w * (k * W - D - d) := mul_nonneg hcw0 (by nlinarith)
    have h2 : 0 ≤ (W - w) * (1 - c * k * w) := mul_nonneg (by linarith) (by linarith)
    nlinarith

/-- What one step takes from the surplus of one destination. -/
theorem log_rate {h r : ℝ} (hh : -(1 / 2) ≤ h) (hr : 0 < r) : Real.log (1 + h) - r * (h / (1 + h)) ≤ h * (1 - r) + 2 * r * h ^ 2 := by
  have h1 : 0 < 1 + h := by linarith
  have h2 := Real.log_le_sub_one_of_pos h1
  have h3 : r * (h / (1 + h)) = r * h - r * h ^ 2 / (1 + h) := by field_simp; ring
  have h4 : r * h ^ 2 / (1 + h) ≤ 2 * r * h ^ 2 := by
    rw [div_le_iff₀ h1]
    have : 0 ≤ r * h ^ 2 := by positivity
    nlinarith
  rw [h3]
  linarith

theorem surplus_step (J : ℕ) (v w h : ℕ → ℝ) (hv : ∀ j < J, 0 < v j) (hw : ∀ j < J, 0 < w j) (hh : ∀ j < J, -(1 / 2) ≤ h j) (w' : ℕ → ℝ) (hw' : ∀ j < J, w' j = w j * (1 + h j)) :
    surplus J v w' ≤ surplus J v w + (∑ j ∈ range J, h j * (1 - v j / w j)) + ∑ j ∈ range J, 2 * (v j / w j) * h j ^ 2 := by
  unfold surplus
  rw [← sum_add_distrib, ← sum_add_distrib]
  refine sum_le_sum fun j hj => ?_
  have hj' := mem_range.1 hj
  have h1 := hv j hj'
  have h2 := hw j hj'
  have h3 : 0 < 1 + h j := by have := hh j hj'; linarith
  have hl := log_rate (hh j hj') (div_pos h1 h2)
  rw [hw' j hj', mul_div_right_comm, Real.log_mul (div_pos h2 h1).ne' h3.ne']
  have h4 : v j / (w j * (1 + h j)) = v j / w j - v j / w j * (h j / (1 + h j)) := by field_simp; ring
  rw [h4]
  linarith

/-- The first-order part, at a vector that balances. -/
theorem first_order (p : PotParams) (J : ℕ) (D : (ℕ → ℝ) → ℕ → ℝ) (dt : ℝ) (v w : ℕ → ℝ) (hv : ∀ j < J, 0 < v j ∧ p.kappa * v j = D v j + p.delta) (hw : ∀ j < J, 0 < w j)
    (hmono : ∑ j ∈ range J, (D w j * (1 - v j / w j) + D v j * (1 - w j / v j)) ≤ 0) (hc : 0 ≤ dt * p.epsilon) :
    ∑ j ∈ range J, rate p D dt w j * (1 - v j / w j) ≤ -(dt * p.epsilon * p.delta * ∑ j ∈ range J, (w j - v j) ^ 2 / (w j * v j)) := by
  have h : ∑ j ∈ range J, rate p D dt w j * (1 - v j / w j) =
      dt * p.epsilon * (∑ j ∈ range J, (D w j * (1 - v j / w j) + D v j * (1 - w j / v j))) - dt * p.epsilon * p.delta * ∑ j ∈ range J, (w j - v j) ^ 2 / (w j * v j) := by
    rw [mul_sum, mul_sum, ← sum_sub_distrib]
    refine sum_congr rfl fun j hj => ?_
    obtain ⟨h1, h2⟩ := hv j (mem_range.1 hj)
    have h3 := hw j (mem_range.1 hj)
    unfold rate
    have h4 : (D w j - p.kappa * w j + p.delta) * (1 - v j / w j) = D w j * (1 - v j / w j) + p.delta * (1 - v j / w j) + (p.kappa * v j) * (1 - w j / v j) := by
      field_simp
      ring
    have h5 : p.delta * ((w j - v j) ^ 2 / (w j * v j)) = p.delta * (v j / w j + w j / v j - 2) := by
      field_simp
      ring
    calc _ = dt * p.epsilon * ((D w j - p.kappa * w j + p.delta) * (1 - v j / w j)) := by ring
      _ = dt * p.epsilon * (D w j * (1 - v j / w j) + D v j * (1 - w j / v j)) - dt * p.epsilon * (p.delta * (v j / w j + w j / v j - 2)) := by rw [h4, h2]; ring
      _ = _ := by rw [← h5]; ring
  rw [h]
  have := mul_nonpos_of_nonneg_of_nonpos hc hmono
  linarith

/-- A step takes a fixed part of the squared distance from the surplus. -/
theorem surplus_decrease (p : PotParams) (J : ℕ) (D : (ℕ → ℝ) → ℕ → ℝ) {dt m W K : ℝ} (v w : ℕ → ℝ) (hv : ∀ j < J, 0 < v j ∧ p.kappa * v j = D v j + p.delta)
    (hm : 0 < m) (hbw : ∀ j < J, m ≤ w j ∧ w j ≤ W) (hbv : ∀ j < J, v j ≤ W) (hW : 0 < W) (hd : 0 ≤ p.delta) (hc : 0 ≤ dt * p.epsilon)
    (hmono : ∑ j ∈ range J, (D w j * (1 - v j / w j) + D v j * (1 - w j / v j)) ≤ 0) (hlip : ∀ j < J, (D w j - D v j) ^ 2 ≤ K * apart J w v)
    (hrate : ∀ j < J, -(1 / 2) ≤ rate p D dt w j) (hsmall : dt * p.epsilon * (4 * (W / m) * (2 * J * K + 2 * p.kappa ^ 2)) ≤ p.delta / W ^ 2)
    (w' : ℕ → ℝ) (hw' : ∀ j < J, w' j = w j * (1 + rate p D dt w j)) :
    surplus J v w' ≤ surplus J v w - dt * p.epsilon * (p.delta / W ^ 2 / 2) * apart J w v := by
  have hwpos : ∀ j < J, 0 < w j := fun j hj => lt_of_lt_of_le hm (hbw j hj).1
  have h1 := surplus_step J v w (rate p D dt w) (fun j hj => (hv j hj).1) hwpos hrate w' hw'
  have h2 := first_order p J D dt v w hv hwpos hmono hc
  have hA : 0 ≤ apart J w v := sum_nonneg fun _ _ => sq_nonneg _
  have h3 : apart J w v / W ^ 2 ≤ ∑ j ∈ range J, (w j - v j) ^ 2 / (w j * v j) := by
    unfold apart
    rw [sum_div]
    refine sum_le_sum fun j hj => ?_
    have hj' := mem_range.1 hj
    have h4 : w j * v j ≤ W ^ 2 := by rw [sq]; exact mul_le_mul (hbw j hj').2 (hbv j hj') (hv j hj').1.le hW.le
    exact div_le_div_of_nonneg_left (sq_nonneg _) (mul_pos (hwpos j hj') (hv j hj').1) h4
  have h5 : ∑ j ∈ range J, 2 * (v j / w j) * rate p D dt w j ^ 2 ≤ (dt * p.epsilon) ^ 2 * (2 * (W / m) * (2 * J * K + 2 * p.kappa ^ 2)) * apart J w v := by
    have hone : ∀ j ∈ range J, 2 * (v j / w j) * rate p D dt w j ^ 2 ≤ (dt * p.epsilon) ^ 2 * (2 * (W / m)) * (2 * (K * apart J w v) + 2 * p.kappa ^ 2 * (w j - v j) ^ 2) := by
      intro j hj
      have hj' := mem_range.1 hj
      obtain ⟨hv1, hv2⟩ := hv j hj'
      have hr : rate p D dt w j = dt * p.epsilon * ((D w j - D v j) - p.kappa * (w j - v j)) := by
        unfold rate
        have : p.delta = p.kappa * v j - D v j := by linarith
        rw [this]
        ring
      have hq : v j / w j ≤ W / m := div_le_div₀ hW.le (hbv j hj') hm (hbw j hj').1
      have hs : ((D w j - D v j) - p.kappa * (w j - v j)) ^ 2 ≤ 2 * (K * apart J w v) + 2 * p.kappa ^ 2 * (w j - v j) ^ 2 := by
        have := hlip j hj'
        nlinarith [sq_nonneg ((D w j - D v j) + p.kappa * (w j - v j))]
      rw [hr, mul_pow]
      calc _ = (dt * p.epsilon) ^ 2 * (2 * (v j / w j)) * ((D w j - D v j) - p.kappa * (w j - v j)) ^ 2 := by ring
        _ ≤ (dt * p.epsilon) ^ 2 * (2 * (W / m)) * ((D w j - D v j) - p.kappa * (w j - v j)) ^ 2 :=
          mul_le_mul_of_nonneg_right (mul_le_mul_of_nonneg_left (by linarith) (sq_nonneg _)) (sq_nonneg _)
        _ ≤ _ := mul_le_mul_of_nonneg_left hs (by positivity)
    refine le_trans (sum_le_sum hone) (le_of_eq ?_)
    rw [← mul_sum, sum_add_distrib, sum_const, card_range, nsmul_eq_mul, ← mul_sum]
    change (dt * p.epsilon) ^ 2 * (2 * (W / m)) * (J * (2 * (K * apart J w v)) + 2 * p.kappa ^ 2 * apart J w v) = _
    ring
  have h6 : (dt * p.epsilon) ^ 2 * (2 * (W / m) * (2 * J * K + 2 * p.kappa ^ 2)) * apart J w v ≤ dt * p.epsilon * (p.delta / W ^ 2 / 2) * apart J w v := by
    refine mul_le_mul_of_nonneg_right ?_ hA
    have := mul_le_mul_of_nonneg_left hsmall hc
    nlinarith
  have h7 : dt * p.epsilon * p.delta * (apart J w v / W ^ 2) ≤ dt * p.epsilon * p.delta * ∑ j ∈ range J, (w j - v j) ^ 2 / (w j * v j) :=
    mul_le_mul_of_nonneg_left h3 (mul_nonneg hc hd)
  have h8 : dt * p.epsilon * p.delta * (apart J w v / W ^ 2) = dt * p.epsilon * (p.delta / W ^ 2) * apart J w v := by ring
  nlinarith

/-- A demand that is bounded, opposes moves and is smooth on boxes makes the simulation settle. -/
theorem settles (p : PotParams) (hp : Spec.Admitted p) (hd : 0 < p.delta) (I J : ℕ) (flow : (ℕ → ℝ) → ℕ → ℕ → ℝ) (D : (ℕ → ℝ) → ℕ → ℝ) (O : ℝ) (hO : 0 ≤ O)
    (hflow : ∀ w, ∀ j < J, ∑ i ∈ range I, flow w i j = D w j) (hD0 : ∀ w, ∀ j < J, 0 ≤ D w j) (hDO : ∀ w, ∀ j < J, D w j ≤ O)
    (hmono : ∀ w v : ℕ → ℝ, (∀ j < J, 0 < w j) → (∀ j < J, 0 < v j) → ∑ j ∈ range J, (D w j * (1 - v j / w j) + D v j * (1 - w j / v j)) ≤ 0)
    (hlip : ∀ m W : ℝ, 0 < m → m ≤ W → ∃ K, 0 ≤ K ∧ ∀ w v : ℕ → ℝ, (∀ j < J, m ≤ w j ∧ w j ≤ W) → (∀ j < J, m ≤ v j ∧ v j ≤ W) → ∀ j < J, (D w j - D v j) ^ 2 ≤ K * apart J w v)
    (v : ℕ → ℝ) (hv : ∀ j < J, 0 < v j ∧ p.kappa * v j = D v j + p.delta) (lo hi : ℝ) (hlo : 0 < lo) : Spec.SettlesAt p I J flow lo hi v := by
  obtain ⟨_, _, hk, he, _⟩ := hp
  set mu : ℝ := (O + p.delta) / p.kappa with hmu
  have hkmu : p.kappa * mu = O + p.delta := by rw [hmu]; field_simp
  have hmupos : 0 < mu := by positivity
  set m : ℝ := min lo (p.delta / p.kappa) with hm
  have hmpos : 0 < m := lt_min hlo (by positivity)
  have hkm : p.kappa * m ≤ p.delta := by
    have := mul_le_mul_of_nonneg_left (min_le_right lo (p.delta / p.kappa)) hk.le
    rwa [mul_div_cancel₀ _ hk.ne'] at this
  set W : ℝ := max hi mu with hW
  have hmuW : mu ≤ W := le_max_right _ _
  have hWpos : 0 < W := lt_of_lt_of_le hmupos hmuW
  have hmmu : m ≤ mu := by
    rw [hmu, le_div_iff₀ hk]
    linarith
  obtain ⟨K, hK0, hK⟩ := hlip m W hmpos (le_trans hmmu hmuW)
  have hvbox : ∀ j < J, m ≤ v j ∧ v j ≤ W := by
    intro j hj
    obtain ⟨_, h2⟩ := hv j hj
    have h3 := hD0 v j hj
    have h4 := hDO v j hj
    constructor
    · refine le_of_mul_le_mul_left (?_ : p.kappa * m ≤ p.kappa * v j) hk
      linarith
    · refine le_trans (le_of_mul_le_mul_left (?_ : p.kappa * v j ≤ p.kappa * mu) hk) hmuW
      linarith
  set Q : ℝ := 4 * (W / m) * (2 * J * K + 2 * p.kappa ^ 2) with hQ
  have hQpos : 0 < Q := by positivity
  refine ⟨min (1 / (2 * p.epsilon * p.kappa * W)) (p.delta / W ^ 2 / (p.epsilon * Q)), lt_min (by positivity) (by positivity), ?_⟩
  intro dt hdt hdtle w hw
  have hc : 0 < dt * p.epsilon := mul_pos hdt he
  have hb1 : dt * p.epsilon * p.kappa * W ≤ 1 / 2 := by
    have := le_trans hdtle (min_le_left _ _)
    rw [le_div_iff₀ (by positivity)] at this
    linarith
  have hb2 : dt * p.epsilon * Q ≤ p.delta / W ^ 2 := by
    have := le_trans hdtle (min_le_right _ _)
    rw [le_div_iff₀ (by positivity)] at this
    linarith
  set u : ℕ → ℕ → ℝ := fun n => runFinal p dt I flow (fun _ _ => 0) n w with hu
  have hstep : ∀ n, ∀ j < J, u (n + 1) j = u n j * (1 + rate p D dt (u n) j) := by
    intro n j hj
    simp only [hu]
    rw [runFinal_succ]
    exact runStep_rate p dt I J flow D hflow _ j hj
  have hbox : ∀ n, ∀ j < J, m ≤ u n j ∧ u n j ≤ W := by
    intro n
    induction n with
    | zero => exact fun j hj => ⟨le_trans (min_le_left _ _) (hw j hj).1, le_trans (hw j hj).2 (le_max_left _ _)⟩
    | succ n ih =>
      intro j hj
      rw [hstep n j hj]
      unfold rate
      refine step_box hk hc.le (hD0 _ j hj) ?_ hmpos hkm hmuW (by linarith) (ih j hj).1 (ih j hj).2
      rw [hkmu]
      linarith [hDO (u n) j hj]
  have hdec : ∀ n, surplus J v (u (n + 1)) ≤ surplus J v (u n) - dt * p.epsilon * (p.delta / W ^ 2 / 2) * apart J (u n) v := by
    intro n
    have hpos : ∀ j < J, 0 < u n j := fun j hj => lt_of_lt_of_le hmpos (hbox n j hj).1
    refine surplus_decrease p J D v (u n) hv hmpos (hbox n) (fun j hj => (hvbox j hj).2) hWpos hd.le hc.le (hmono _ _ hpos fun j hj => (hv j hj).1)
      (hK _ _ (hbox n) hvbox) ?_ hb2 _ (hstep n)
    intro j hj
    unfold rate
    have h1 := hD0 (u n) j hj
    have h2 : dt * p.epsilon * (p.kappa * u n j) ≤ dt * p.epsilon * (p.kappa * W) := mul_le_mul_of_nonneg_left (mul_le_mul_of_nonneg_left (hbox n j hj).2 hk.le) hc.le
    have h3 : 0 ≤ dt * p.epsilon * (D (u n) j + p.delta) := mul_nonneg hc.le (by linarith)
    nlinarith
  set c : ℝ := dt * p.epsilon * (p.delta / W ^ 2 / 2) with hcdef
  have hcpos : 0 < c := by positivity
  have hsum : ∀ n, ∑ k ∈ range n, c * apart J (u k) v ≤ surplus J v (u 0) - surplus J v (u n) := by
    intro n
    induction n with
    | zero => simp
    | succ n ih =>
      rw [sum_range_succ]
      have := hdec n
      linarith
  have hA : ∀ n, 0 ≤ apart J (u n) v := fun n => sum_nonneg fun _ _ => sq_nonneg _
  have hsummable : Summable fun n => c * apart J (u n) v := by
    refine summable_of_sum_range_le (c := surplus J v (u 0)) (fun n => mul_nonneg hcpos.le (hA n)) fun n => ?_
    have h1 := hsum n
    have h2 := surplus_nonneg J v (u n) (fun j hj => (hv j hj).1) fun j hj => lt_of_lt_of_le hmpos (hbox n j hj).1
    linarith
  have hzero : Filter.Tendsto (fun n => apart J (u n) v) Filter.atTop (nhds 0) := by
    have h1 := (hsummable.tendsto_atTop_zero).const_mul (1 / c)
    rw [mul_zero] at h1
    refine h1.congr fun n => ?_
    field_simp
  intro j hj
  have hsq : Filter.Tendsto (fun n => (u n j - v j) ^ 2) Filter.atTop (nhds 0) :=
    squeeze_zero (fun n => sq_nonneg _) (fun n => single_le_sum (f := fun j => (u n j - v j) ^ 2) (fun _ _ => sq_nonneg _) (mem_range.2 hj)) hzero
  have habs : Filter.Tendsto (fun n => |u n j - v j|) Filter.atTop (nhds 0) := by
    have := (Real.continuous_sqrt.tendsto 0).comp hsq
    rw [Real.sqrt_zero] at this
    refine this.congr fun n => ?_
    simp only [Function.comp, Real.sqrt_sq_eq_abs]
  have hdiff := (tendsto_zero_iff_abs_tendsto_zero _).2 habs
  have := hdiff.add_const (v j)
  rw [zero_add] at this
  refine this.congr fun n => ?_
  simp only [sub_add_cancel, hu]

/-! ### The demands of the two models -/

theorem demandP_opposes (p : PotParams) (ha1 : p.alpha ≤ 1) {I J : ℕ} (hJ : 0 < J) (dem : ℕ → ℝ) (hO : ∀ i < I, 0 ≤ dem i) (cost : ℕ → ℕ → ℝ) (w v : ℕ → ℝ)
    (hw : ∀ j < J, 0 < w j) (hv : ∀ j < J, 0 < v j) :
    ∑ j ∈ range J, (demandP p I J dem cost (fun k => Real.log (w k)) j * (1 - v j / w j) + demandP p I J dem cost (fun k => Real.log (v k)) j * (1 - w j / v j)) ≤ 0 := by
  have hq : ∀ a b : ℕ → ℝ, (∀ j < J, 0 < a j) → (∀ j < J, 0 < b j) → ∀ j ∈ range J, a j / b j = Real.exp (Real.log (a j) - Real.log (b j)) := by
    intro a b ha hb j hj
    have hj' := mem_range.1 hj
    rw [Real.exp_sub, Real.exp_log (ha j hj'), Real.exp_log (hb j hj')]
  have h1 : ∑ j ∈ range J, demandP p I J dem cost (fun k => Real.log (w k)) j * (1 - v j / w j) =
      ∑ i ∈ range I, dem i * (1 - ∑ j ∈ range J, Spec.choice J p.alpha p.beta (fun k => Real.log (w k)) cost i j * Real.exp (Real.log (v j) - Real.log (w j))) := by
    rw [← demandP_moves p hJ dem cost _ fun j => Real.exp (Real.log (v j) - Real.log (w j))]
    exact sum_congr rfl fun j hj => by rw [hq v w hv hw j hj]
  have h2 : ∑ j ∈ range J, demandP p I J dem cost (fun k => Real.log (v k)) j * (1 - w j / v j) =
      ∑ i ∈ range I, dem i * (1 - ∑ j ∈ range J, Spec.choice J p.alpha p.beta (fun k => Real.log (v k)) cost i j * Real.exp (Real.log (w j) - Real.log (v j))) := by
    rw [← demandP_moves p hJ dem cost _ fun j => Real.exp (Real.log (w j) - Real.log (v j))]
    exact sum_congr rfl fun j hj => by rw [hq w v hw hv j hj]
  rw [sum_add_distrib, h1, h2, ← sum_add_distrib]
  refine sum_nonpos fun i hi => ?_
  have h := (choice_moves p.alpha p.beta ha1 hJ (fun k => Real.log (w k)) (fun k => Real.log (v k)) cost i).1
  have h2 := hO i (mem_range.1 hi)
  nlinarith

/-- Choices change by no more than a factor when log attractions move by `t`. -/
theorem choice_factor (a b : ℝ) (ha : 0 ≤ a) {J : ℕ} (hJ : 0 < J) (x y : ℕ → ℝ) (cost : ℕ → ℕ → ℝ) (t : ℝ) (ht : ∀ j < J, |y j - x j| ≤ t) (i j : ℕ) (hj : j < J) :
    Spec.choice J a b y cost i j ≤ Real.exp (2 * a * t) * Spec.choice J a b x cost i j := by
  have h1 : ∀ k < J, Spec.weight a b y cost i k ≤ Real.exp (a * t) * Spec.weight a b x cost i k := by
    intro k hk
    unfold Spec.weight
    rw [← Real.exp_add, Real.exp_le_exp]
    have := mul_le_mul_of_nonneg_left (le_trans (le_abs_self _) (ht k hk)) ha
    linarith
  have h2 : ∀ k < J, Spec.weight a b x cost i k ≤ Real.exp (a * t) * Spec.weight a b y cost i k := by
    intro k hk
    unfold Spec.weight
    rw [← Real.exp_add, Real.exp_le_exp]
    have := mul_le_mul_of_nonneg_left (le_trans (neg_le_abs _) (ht k hk)) ha
    linarith
  have h3 : (∑ k ∈ range J, Spec.weight a b x cost i k) ≤ Real.exp (a * t) * ∑ k ∈ range J, Spec.weight a b y cost i k := by
    rw [mul_sum]
    exact sum_le_sum fun k hk => h2 k (mem_range.1 hk)
  have hx := weightSum_pos a b hJ x cost i
  have hy := weightSum_pos a b hJ y cost i
  unfold Spec.choice
  rw [div_le_iff₀ hy, mul_div_assoc', div_mul_eq_mul_div, le_div_iff₀ hx]
  have hwy : 0 < Spec.weight a b y cost i j := Real.exp_pos _
  have hwx : 0 < Spec.weight a b x cost i j := Real.exp_pos _
  have he : Real.exp (2 * a * t) = Real.exp (a * t) * Real.exp (a * t) := by rw [← Real.exp_add]; congr 1; ring
  rw [he]
  calc _ ≤ (Real.exp (a * t) * Spec.weight a b x cost i j) * (Real.exp (a * t) * ∑ k ∈ range J, Spec.weight a b y cost i k) :=
        mul_le_mul (h1 j hj) h3 hx.le (by positivity)
    _ = _ := by ring

theorem choice_le_one (a b : ℝ) {J : ℕ} (hJ : 0 < J) (x : ℕ → ℝ) (cost : ℕ → ℕ → ℝ) (i j : ℕ) (hj : j < J) : Spec.choice J a b x cost i j ≤ 1 := by
  have := single_le_sum (f := fun j => Spec.choice J a b x cost i j) (fun k _ => (choice_pos a b hJ x cost i k).le) (mem_range.2 hj)
  rwa [choice_sum a b hJ] at this

theorem choice_change (a b : ℝ) (ha : 0 ≤ a) {J : ℕ} (hJ : 0 < J) (x y : ℕ → ℝ) (cost : ℕ → ℕ → ℝ) (t T : ℝ) (ht0 : 0 ≤ t) (htT : t ≤ T) (ht : ∀ j < J, |y j - x j| ≤ t) (i j : ℕ) (hj : j < J) :
    |Spec.choice J a b y cost i j - Spec.choice J a b x cost i j| ≤ 2 * a * Real.exp (2 * a * T) * t := by
  have key : ∀ x y : ℕ → ℝ, (∀ j < J, |y j - x j| ≤ t) → Spec.choice J a b y cost i j - Spec.choice J a b x cost i j ≤ 2 * a * Real.exp (2 * a * T) * t := by
    intro x y ht
    have h1 := choice_factor a b ha hJ x y cost t ht i j hj
    have h2 := choice_le_one a b hJ x cost i j hj
    have h3 := (choice_pos a b hJ x cost i j).le
    -- `e^s - 1 ≤ s e^s`
    have h4 : Real.exp (2 * a * t) - 1 ≤ 2 * a * t * Real.exp (2 * a * t) := by
      have h5 := Real.add_one_le_exp (-(2 * a * t))
      have h6 := mul_le_mul_of_nonneg_left h5 (Real.exp_pos (2 * a * t)).le
      rw [← Real.exp_add, add_neg_cancel, Real.exp_zero] at h6
      linarith
    have h7 : 2 * a * t * Real.exp (2 * a * t) ≤ 2 * a * t * Real.exp (2 * a * T) := by
      refine mul_le_mul_of_nonneg_left (Real.exp_le_exp.2 ?_) (by positivity)
      exact mul_le_mul_of_nonneg_left htT (by positivity)
    have h8 : 0 ≤ Real.exp (2 * a * t) - 1 := by
      have := Real.add_one_le_exp (2 * a * t)
      have : 0 ≤ 2 * a * t := by positivity
      linarith
    have h9 := mul_le_mul_of_nonneg_left h2 h8
    nlinarith
  rw [abs_le]
  constructor
  · have := key y x fun j hj => by rw [abs_sub_comm]; exact ht j hj
    linarith
  · exact key x y ht

theorem log_change {m a b : ℝ} (hm : 0 < m) (ha : m ≤ a) (hb : m ≤ b) : |Real.log a - Real.log b| ≤ |a - b| / m := by
  have key : ∀ a b : ℝ, m ≤ a → m ≤ b → Real.log a - Real.log b ≤ |a - b| / m := by
    intro a b ha hb
    have ha0 := lt_of_lt_of_le hm ha
    have hb0 := lt_of_lt_of_le hm hb
    have h := Real.log_le_sub_one_of_pos (div_pos ha0 hb0)
    rw [Real.log_div ha0.ne' hb0.ne'] at h
    refine le_trans h ?_
    have h1 : a / b - 1 = (a - b) / b := by field_simp
    rw [h1]
    exact le_trans (div_le_div_of_nonneg_right (le_abs_self _) hb0.le) (div_le_div_of_nonneg_left (abs_nonneg _) hm hb)
  rw [abs_le]
  constructor
  · have := key b a hb ha
    rw [abs_sub_comm] at this
    linarith
  · exact key a b ha hb

theorem demandP_smooth (p : PotParams) (ha : 0 ≤ p.alpha) {I J : ℕ} (hJ : 0 < J) (dem : ℕ → ℝ) (hO : ∀ i < I, 0 ≤ dem i) (cost : ℕ → ℕ → ℝ) (m W : ℝ) (hm : 0 < m) (hmW : m ≤ W) :
    ∃ K, 0 ≤ K ∧ ∀ w v : ℕ → ℝ, (∀ j < J, m ≤ w j ∧ w j ≤ W) → (∀ j < J, m ≤ v j ∧ v j ≤ W) →
      ∀ j < J, (demandP p I J dem cost (fun k => Real.log (w k)) j - demandP p I J dem cost (fun k => Real.log (v k)) j) ^ 2 ≤ K * apart J w v := by
  have hW := lt_of_lt_of_le hm hmW
  set O : ℝ := ∑ i ∈ range I, dem i with hOdef
  have hO0 : 0 ≤ O := sum_nonneg fun i hi => hO i (mem_range.1 hi)
  set T : ℝ := Real.sqrt (J * W ^ 2) / m with hT
  set L : ℝ := O * (2 * p.alpha * Real.exp (2 * p.alpha * T)) / m with hL
  refine ⟨L ^ 2, sq_nonneg _, fun w v hw hv j hj => ?_⟩
  have hA : 0 ≤ apart J w v := sum_nonneg fun _ _ => sq_nonneg _
  set t : ℝ := Real.sqrt (apart J w v) / m with htdef
  have ht0 : 0 ≤ t := by positivity
  have htT : t ≤ T := by
    refine div_le_div_of_nonneg_right (Real.sqrt_le_sqrt ?_) hm.le
    unfold apart
    calc _ ≤ ∑ _k ∈ range J, W ^ 2 := by
          refine sum_le_sum fun k hk => ?_
          have h1 := hw k (mem_range.1 hk)
          have h2 := hv k (mem_range.1 hk)
          exact sq_le_sq' (by linarith) (by linarith)
      _ = _ := by rw [sum_const, card_range, nsmul_eq_mul]
  have ht : ∀ k < J, |Real.log (w k) - Real.log (v k)| ≤ t := by
    intro k hk
    refine le_trans (log_change hm (hw k hk).1 (hv k hk).1) (div_le_div_of_nonneg_right ?_ hm.le)
    refine Real.abs_le_sqrt ?_
    exact single_le_sum (f := fun k => (w k - v k) ^ 2) (fun _ _ => sq_nonneg _) (mem_range.2 hk)
  have hdiff : |demandP p I J dem cost (fun k => Real.log (w k)) j - demandP p I J dem cost (fun k => Real.log (v k)) j| ≤ O * (2 * p.alpha * Real.exp (2 * p.alpha * T) * t) := by
    unfold demandP
    rw [← sum_sub_distrib]
    refine le_trans (abs_sum_le_sum_abs _ _) ?_
    rw [hOdef, sum_mul]
    refine sum_le_sum fun i hi => ?_
    rw [← mul_sub, abs_mul, abs_of_nonneg (hO i (mem_range.1 hi))]
    exact mul_le_mul_of_nonneg_left (choice_change p.alpha p.beta ha hJ (fun k => Real.log (v k)) (fun k => Real.log (w k)) cost t T ht0 htT ht i j hj) (hO i (mem_range.1 hi))
  have hfin : O * (2 * p.alpha * Real.exp (2 * p.alpha * T) * t) = L * Real.sqrt (apart J w v) := by
    rw [hL, htdef]
    ring
  rw [hfin] at hdiff
  calc _ = |demandP p I J dem cost (fun k => Real.log (w k)) j - demandP p I J dem cost (fun k => Real.log (v k)) j| ^ 2 := (sq_abs _).symm
    _ ≤ (L * Real.sqrt (apart J w v)) ^ 2 := pow_le_pow_left₀ (abs_nonneg _) hdiff 2
    _ = _ := by rw [mul_pow, Real.sq_sqrt hA]

/-- **C192 (production constrained).**  For `alpha ≤ 1` and `delta > 0` there are attractions at rest, and from every start within given positive bounds the noise-free simulation tends to them, for
every step size up to some bound. -/
theorem C192_production (p : PotParams) (hp : Spec.Admitted p) (hd : 0 < p.delta) (ha1 : p.alpha ≤ 1) (I : ℕ) {J : ℕ} (hJ : 0 < J) (dem : ℕ → ℝ) (hO : ∀ i < I, 0 ≤ dem i) (cost : ℕ → ℕ → ℝ) :
    ∃ v : ℕ → ℝ, (∀ dt, dt ≠ 0 → Spec.AtRestP p dt I J dem cost v) ∧ ∀ lo hi : ℝ, 0 < lo → Spec.SettlesAt p I J (productionFlow p I J dem cost) lo hi v := by
  obtain ⟨x, _, hr⟩ := C191_exists p hp hd 1 one_ne_zero I hJ dem hO cost
  have he := hp.2.2.2.1.ne'
  have hv := (atRestP_iff p 1 one_ne_zero he I J dem hO cost _).1 hr
  refine ⟨_, fun dt hdt => (atRestP_iff p dt hdt he I J dem hO cost _).2 hv, fun lo hi hlo => ?_⟩
  refine settles p hp hd I J _ (fun w => demandP p I J dem cost fun k => Real.log (w k)) (∑ i ∈ range I, dem i) (sum_nonneg fun i hi => hO i (mem_range.1 hi)) ?_ ?_ ?_ ?_ ?_ _ hv lo hi hlo
  · exact fun w j hj => productionFlow_eq p I J dem hO cost w j hj
  · exact fun w j _ => demandP_nonneg p hJ dem hO cost _ j
  · intro w j hj
    have := single_le_sum (fun k _ => demandP_nonneg p hJ dem hO cost (fun k => Real.log (w k)) k) (mem_range.2 hj)
    rwa [demandP_sum p hJ] at this
  · exact fun w v hw hv => demandP_opposes p ha1 hJ dem hO cost w v hw hv
  · exact fun m W hm hmW => demandP_smooth p hp.1.le hJ dem hO cost m W hm hmW

/-- The demand of the totally constrained model is that of a production constrained one with one origin. -/
theorem demandT_as_P (p : PotParams) {I : ℕ} (hI : 0 < I) (J : ℕ) (cost : ℕ → ℕ → ℝ) (x : ℕ → ℝ) (j : ℕ) :
    demandT p I J cost x j = demandP ⟨p.alpha, 1, p.delta, p.kappa, p.sigma, p.epsilon⟩ 1 J (fun _ => 1) (fun _ k => -Real.log (access p I cost k)) x j := by
  have h : ∀ k, Spec.weight p.alpha 1 x (fun _ k => -Real.log (access p I cost k)) 0 k = Real.exp (p.alpha * x k) * access p I cost k := by
    intro k
    unfold Spec.weight
    rw [one_mul, sub_neg_eq_add, Real.exp_add, Real.exp_log (access_pos p hI cost k)]
  rw [demandT_access]
  unfold demandP Spec.choice
  simp only [sum_range_one, one_mul, h]

/-- **C192 (totally constrained).** -/
theorem C192_total (p : PotParams) (hp : Spec.Admitted p) (hd : 0 < p.delta) (ha1 : p.alpha ≤ 1) {I J : ℕ} (hI : 0 < I) (hJ : 0 < J) (cost : ℕ → ℕ → ℝ) :
    ∃ v : ℕ → ℝ, (∀ dt, dt ≠ 0 → Spec.AtRest p dt I J cost v) ∧ ∀ lo hi : ℝ, 0 < lo → Spec.SettlesAt p I J (totallyFlow p I J cost) lo hi v := by
  obtain ⟨x, _, hr⟩ := C188_exists p hp hd 1 one_ne_zero hI hJ cost
  have he := hp.2.2.2.1.ne'
  have hv := (atRest_iff p 1 one_ne_zero he I J cost _).1 hr
  refine ⟨_, fun dt hdt => (atRest_iff p dt hdt he I J cost _).2 hv, fun lo hi hlo => ?_⟩
  obtain ⟨q, hqdef⟩ : ∃ q : PotParams, q = ⟨p.alpha, 1, p.delta, p.kappa, p.sigma, p.epsilon⟩ := ⟨_, rfl⟩
  have hqa : q.alpha = p.alpha := by rw [hqdef]
  have hD : ∀ (w : ℕ → ℝ) (j : ℕ), demandT p I J cost (fun k => Real.log (w k)) j = demandP q 1 J (fun _ => 1) (fun _ k => -Real.log (access p I cost k)) (fun k => Real.log (w k)) j := by
    intro w j
    rw [hqdef]
    exact demandT_as_P p hI J cost _ j
  refine settles p hp hd I J _ (fun w => demandT p I J cost fun k => Real.log (w k)) 1 zero_le_one ?_ ?_ ?_ ?_ ?_ _ hv lo hi hlo
  · exact fun w j hj => totallyFlow_eq p hI J cost w j hj
  · exact fun w j _ => (demandT_pos p hI hJ cost _ j).le
  · intro w j hj
    have := single_le_sum (fun k _ => (demandT_pos p hI hJ cost (fun k => Real.log (w k)) k).le) (mem_range.2 hj)
    rwa [demandT_sum p hI hJ] at this
  · intro w v hw hv
    simp only [hD]
    exact demandP_opposes q (hqa ▸ ha1) hJ _ (fun _ _ => zero_le_one) _ w v hw hv
  · intro m W hm hmW
    simp only [hD]
    exact demandP_smooth q (hqa ▸ hp.1.le) hJ _ (fun _ _ => zero_le_one) _ m W hm hmW

/-! ### Large steps -/

/-- **C192 is false for large steps**: with step size `5/3` a destination jumps between `4/5` and `12/5` for ever, although one is at rest. -/
theorem C192_false : ∃ (p : PotParams) (dt : ℝ) (w : ℕ → ℝ), Spec.Admitted p ∧ 0 < p.delta ∧ p.alpha ≤ 1 ∧ 0 < dt ∧ 0 < w 0 ∧ (∃ v, Spec.AtRestP p dt 2 1 (fun _ => 1 / 2) (fun _ _ => 0) v) ∧
    ∀ l, ¬ Filter.Tendsto (fun n => runFinal p dt 2 (productionFlow p 2 1 (fun _ => 1 / 2) fun _ _ => 0) (fun _ _ => 0) n w 0) Filter.atTop (nhds l) := by
  have hO : ∀ i < 2, (0 : ℝ) ≤ (fun _ : ℕ => 1 / 2) i := fun _ _ => by norm_num
  have hdem : ∀ x : ℕ → ℝ, demandP demoFlat 2 1 (fun _ => 1 / 2) (fun _ _ => 0) x 0 = 1 := by
    intro x
    have := demandP_sum demoFlat (I := 2) (J := 1) one_pos (fun _ => 1 / 2) (fun _ _ => 0) x
    rw [sum_range_one] at this
    rw [this]
    norm_num [sum_range_succ]
  have hstep : ∀ w : ℕ → ℝ, runStep demoFlat (5 / 3) 2 (productionFlow demoFlat 2 1 (fun _ => 1 / 2) fun _ _ => 0) (fun _ => 0) w 0 = w 0 * (1 + 5 / 3 * (2 - w 0)) := by
    intro w
    unfold runStep runSingle
    rw [productionFlow_eq demoFlat 2 1 _ hO _ w 0 one_pos, hdem]
    norm_num [demoFlat]
    ring
  refine ⟨demoFlat, 5 / 3, fun _ => 4 / 5, demoFlat_admitted, by norm_num [demoFlat], le_rfl, by norm_num, by norm_num, ⟨fun _ => 2, ?_⟩, ?_⟩
  · rw [atRestP_iff demoFlat (5 / 3) (by norm_num) (by norm_num [demoFlat]) 2 1 _ hO]
    intro j hj
    obtain rfl : j = 0 := by omega
    rw [hdem]
    norm_num [demoFlat]
  · intro l hl
    set u : ℕ → ℝ := fun n => runFinal demoFlat (5 / 3) 2 (productionFlow demoFlat 2 1 (fun _ => 1 / 2) fun _ _ => 0) (fun _ _ => 0) n (fun _ => 4 / 5) 0 with hu
    have hsucc : ∀ n, u (n + 1) = u n * (1 + 5 / 3 * (2 - u n)) := by
      intro n
      simp only [hu]
      rw [runFinal_succ, hstep]
    have heven : ∀ n, u (2 * n) = 4 / 5 ∧ u (2 * n + 1) = 12 / 5 := by
      intro n
      induction n with
      | zero =>
        have h0 : u 0 = 4 / 5 := rfl
        refine ⟨h0, ?_⟩
        rw [Nat.mul_zero, hsucc, h0]
        norm_num
      | succ n ih =>
        have h1 : u (2 * (n + 1)) = 4 / 5 := by
          rw [show 2 * (n + 1) = 2 * n + 1 + 1 by ring, hsucc, ih.2]
          norm_num
        refine ⟨h1, ?_⟩
        rw [hsucc, h1]
        norm_num
    have ht1 : Filter.Tendsto (fun n : ℕ => 2 * n) Filter.atTop Filter.atTop := Filter.tendsto_atTop_mono (fun n => by simp only [id]; omega) Filter.tendsto_id
    have ht2 : Filter.Tendsto (fun n : ℕ => 2 * n + 1) Filter.atTop Filter.atTop := Filter.tendsto_atTop_mono (fun n => by simp only [id]; omega) Filter.tendsto_id
    have h1 : l = 4 / 5 := tendsto_nhds_unique (hl.comp ht1) ((tendsto_const_nhds (x := (4 / 5 : ℝ))).congr fun n => ((heven n).1).symm)
    have h2 : l = 12 / 5 := tendsto_nhds_unique (hl.comp ht2) ((tendsto_const_nhds (x := (12 / 5 : ℝ))).congr fun n => ((heven n).2).symm)
    rw [h1] at h2
    norm_num at h2

example : ∃ bound > 0, ∀ dt, 0 < dt → dt ≤ bound → Filter.Tendsto (fun n => runFinal demoFlat dt 2 (productionFlow demoFlat 2 2 demoDem fun _ _ => 0) (fun _ _ => 0) n (fun k => (k : ℝ) + 1) 0)
    Filter.atTop (nhds 3) := by
  have hO : ∀ i < 2, 0 ≤ demoDem i := fun i _ => by unfold demoDem; split_ifs <;> norm_num
  obtain ⟨v, hv, hs⟩ := C192_production demoFlat demoFlat_admitted (by norm_num [demoFlat]) le_rfl 2 (by norm_num : 0 < 2) demoDem hO fun _ _ => 0
  obtain ⟨b, hb, h⟩ := hs 1 2 one_pos
  refine ⟨b, hb, fun dt h0 h1 => ?_⟩
  have hw : ∀ j : ℕ, j < 2 → (1 : ℝ) ≤ (j : ℝ) + 1 ∧ (j : ℝ) + 1 ≤ 2 := by
    intro j hj
    rcases (by omega : j = 0 ∨ j = 1) with rfl | rfl <;> norm_num
  have := h dt h0 h1 (fun k => (k : ℝ) + 1) hw 0 (by norm_num)
  rwa [C191_unique demoFlat demoFlat_admitted le_rfl (Or.inr (by norm_num [demoFlat])) 1 one_ne_zero demoDem hO (fun _ _ => 0) _ _ (hv 1 one_ne_zero) demoFlat_restP 0 (by norm_num)] at this

end GeNSIT
