import Verif.Sampler.Stationary
import Mathlib.MeasureTheory.Integral.Bochner.Basic
import Mathlib.MeasureTheory.Integral.Bochner.Set

/-!
# C156: the parameter update with a random estimate of 1/z

`theta_gibbs_step` and `theta_given_table_gibbs_step` (`gensit/learning_models/HarrisWilsonModel_MCMC.py:605-829`) when `z_inverse` is random
(`unbiased_z_inverse`): the estimate and its sign are carried with the parameters.  The model is that of C92; `Ω` with the probability `ν` are
the random draws made by one call of `z_inverse`, and `est θ ω` the pair it returns.
-/

set_option linter.unusedSectionVars false
set_option linter.unusedVariables false

open MeasureTheory Set
open scoped ENNReal

namespace GeNSIT

variable {Ω : Type} [MeasurableSpace Ω]

/-! ## The abstract update -/

/-- One update of the pair (parameters, draws behind the carried estimate). -/
noncomputable def pmStep (L : (ℝ × ℝ) × Ω → ℝ) (a : ℝ × ℝ) (om : Ω) (w : ℝ × ℝ) (om' : Ω) (u : ℝ) : (ℝ × ℝ) × Ω :=
  open Classical in if fold2 a w ∈ box ∧ Real.log u < L (fold2 a w, om') - L (a, om) then (fold2 a w, om') else (a, om)

/-- The acceptance probability. -/
noncomputable def pmAcc (L : (ℝ × ℝ) × Ω → ℝ) (s s' : (ℝ × ℝ) × Ω) : ℝ≥0∞ :=
  box.indicator (fun _ => min 1 (ENNReal.ofReal (Real.exp (L s' - L s)))) s'.1

theorem pmAcc_le (L : (ℝ × ℝ) × Ω → ℝ) (s s' : (ℝ × ℝ) × Ω) : pmAcc L s s' ≤ 1 := by
  unfold pmAcc
  by_cases h : s'.1 ∈ box
  · rw [indicator_of_mem h]; exact min_le_left _ _
  · rw [indicator_of_notMem h]; exact zero_le

open Classical in
theorem pm_lintegral_accept (d : ℝ) (A B : ℝ≥0∞) :
    ∫⁻ u in Ioo (0 : ℝ) 1, (if Real.log u < d then A else B) =
      min 1 (ENNReal.ofReal (Real.exp d)) * A + (1 - min 1 (ENNReal.ofReal (Real.exp d))) * B := by
  have hset : Ioo (0 : ℝ) 1 = Ioo 0 (min 1 (Real.exp d)) ∪ (Ioo (0 : ℝ) 1 \ Ioo 0 (min 1 (Real.exp d))) := by
    rw [union_sdiff_cancel]
    exact Ioo_subset_Ioo le_rfl (min_le_left _ _)
  rw [hset, lintegral_union (measurableSet_Ioo.diff measurableSet_Ioo) disjoint_sdiff_right]
  congr 1
  · rw [setLIntegral_congr_fun (g := fun _ => A) measurableSet_Ioo]
    · rw [setLIntegral_const, volume_log_lt, mul_comm]
    · intro u hu
      rw [← log_lt_set] at hu
      simp [hu.2]
  · rw [setLIntegral_congr_fun (g := fun _ => B) (measurableSet_Ioo.diff measurableSet_Ioo)]
    · rw [setLIntegral_const, measure_sdiff (Ioo_subset_Ioo le_rfl (min_le_left _ _)) measurableSet_Ioo.nullMeasurableSet
        (by rw [volume_log_lt]; exact ne_top_of_le_ne_top ENNReal.one_ne_top (min_le_left _ _)), volume_log_lt, mul_comm]
      simp
    · intro u hu
      have : ¬ Real.log u < d := by
        intro h
        refine hu.2 ?_
        rw [← log_lt_set]
        exact ⟨hu.1, h⟩
      simp [this]

theorem lintegral_pmStep (L : (ℝ × ℝ) × Ω → ℝ) (a w : ℝ × ℝ) (om om' : Ω) (psi : (ℝ × ℝ) × Ω → ℝ≥0∞) :
    ∫⁻ u in Ioo (0 : ℝ) 1, psi (pmStep L a om w om' u) =
      pmAcc L (a, om) (fold2 a w, om') * psi (fold2 a w, om') + (1 - pmAcc L (a, om) (fold2 a w, om')) * psi (a, om) := by
  classical
  by_cases hb : fold2 a w ∈ box
  · have e : ∀ u : ℝ, psi (pmStep L a om w om' u) =
        if Real.log u < L (fold2 a w, om') - L (a, om) then psi (fold2 a w, om') else psi (a, om) := by
      intro u
      unfold pmStep
      simp only [hb, true_and]
      split <;> rfl
    simp only [e]
    rw [pm_lintegral_accept]
    simp only [pmAcc, hb, indicator_of_mem]
  · simp [pmStep, hb, pmAcc]

/-- The unnormalised density of the pair. -/
noncomputable def pmDens (L : (ℝ × ℝ) × Ω → ℝ) (s : (ℝ × ℝ) × Ω) : ℝ≥0∞ := ENNReal.ofReal (Real.exp (L s))

/-- The symmetric weight of two pairs. -/
noncomputable def pmWeight (L : (ℝ × ℝ) × Ω → ℝ) (om om' : Ω) (a b : ℝ × ℝ) : ℝ≥0∞ :=
  box.indicator 1 a * (pmDens L (a, om) * pmAcc L (a, om) (b, om'))

theorem pmWeight_zero (L : (ℝ × ℝ) × Ω → ℝ) (om om' : Ω) (a b : ℝ × ℝ) (hb : b ∉ box) : pmWeight L om om' a b = 0 := by
  simp [pmWeight, pmAcc, hb]

theorem pmWeight_symm (L : (ℝ × ℝ) × Ω → ℝ) (om om' : Ω) (a b : ℝ × ℝ) : pmWeight L om om' a b = pmWeight L om' om b a := by
  have hval : ∀ s s' : (ℝ × ℝ) × Ω, s'.1 ∈ box → pmDens L s * pmAcc L s s' = min (pmDens L s) (pmDens L s') := by
    intro s s' hb
    unfold pmDens pmAcc
    rw [indicator_of_mem hb, mul_min, mul_one, ← ENNReal.ofReal_mul (Real.exp_nonneg _), ← Real.exp_add]
    congr 3
    ring
  by_cases ha : a ∈ box
  · by_cases hb : b ∈ box
    · unfold pmWeight
      rw [hval _ _ hb, hval _ _ ha, indicator_of_mem ha, indicator_of_mem hb, min_comm]
      rfl
    · rw [pmWeight_zero L om om' a b hb]; simp [pmWeight, hb]
  · rw [pmWeight_zero L om' om b a ha]; simp [pmWeight, ha]

section

variable (L : (ℝ × ℝ) × Ω → ℝ) (hL : Measurable L)
include hL

theorem measurable_pmDens : Measurable (pmDens L) := by unfold pmDens; fun_prop

theorem measurable_pmAcc : Measurable fun p : ((ℝ × ℝ) × Ω) × ((ℝ × ℝ) × Ω) => pmAcc L p.1 p.2 := by
  have : (fun p : ((ℝ × ℝ) × Ω) × ((ℝ × ℝ) × Ω) => pmAcc L p.1 p.2) =
      ((fun p : ((ℝ × ℝ) × Ω) × ((ℝ × ℝ) × Ω) => p.2.1) ⁻¹' box).indicator
        fun p => min 1 (ENNReal.ofReal (Real.exp (L p.2 - L p.1))) := by
    funext p
    by_cases h : p.2.1 ∈ box
    · simp [pmAcc, h]
    · simp [pmAcc, h]
  rw [this]
  exact Measurable.indicator (by fun_prop) ((measurable_fst.comp measurable_snd) measurableSet_box)

theorem measurable_pmWeight : Measurable fun p : (Ω × Ω) × ((ℝ × ℝ) × (ℝ × ℝ)) => pmWeight L p.1.1 p.1.2 p.2.1 p.2.2 := by
  have i1 : Measurable fun p : (Ω × Ω) × ((ℝ × ℝ) × (ℝ × ℝ)) => box.indicator (1 : ℝ × ℝ → ℝ≥0∞) p.2.1 :=
    (measurable_one.indicator measurableSet_box).comp (measurable_fst.comp measurable_snd)
  have i2 : Measurable fun p : (Ω × Ω) × ((ℝ × ℝ) × (ℝ × ℝ)) => pmDens L (p.2.1, p.1.1) :=
    (measurable_pmDens L hL).comp (by fun_prop)
  have i3 : Measurable fun p : (Ω × Ω) × ((ℝ × ℝ) × (ℝ × ℝ)) => pmAcc L (p.2.1, p.1.1) (p.2.2, p.1.2) := by
    have : Measurable fun p : (Ω × Ω) × ((ℝ × ℝ) × (ℝ × ℝ)) => (((p.2.1, p.1.1), (p.2.2, p.1.2)) : ((ℝ × ℝ) × Ω) × ((ℝ × ℝ) × Ω)) := by
      fun_prop
    exact (measurable_pmAcc L hL).comp this
  exact i1.mul (i2.mul i3)

/-- Balance for a pair of draws. -/
theorem pm_balance (q : ℝ × ℝ → ℝ≥0∞) (hq : Measurable q) (h0 : ∀ w, q (-w.1, w.2) = q w) (h1 : ∀ w, q (w.1, -w.2) = q w)
    (psi : (ℝ × ℝ) × Ω → ℝ≥0∞) (hpsi : Measurable psi) (om om' : Ω) :
    ∫⁻ a, ∫⁻ w, pmWeight L om om' a (fold2 a w) * psi (fold2 a w, om') * q w =
      ∫⁻ a, ∫⁻ w, pmWeight L om' om a (fold2 a w) * psi (a, om') * q w := by
  have hm : ∀ o o' : Ω, Measurable (Function.uncurry (pmWeight L o o')) := by
    intro o o'
    exact (measurable_pmWeight L hL).comp (measurable_const.prodMk measurable_id : Measurable fun x : (ℝ × ℝ) × (ℝ × ℝ) => ((o, o'), x))
  have hm' : ∀ o o' a, Measurable (pmWeight L o o' a) := fun o o' a => (hm o o').comp (measurable_const.prodMk measurable_id)
  have hp : ∀ o : Ω, Measurable fun b : ℝ × ℝ => psi (b, o) := fun o => hpsi.comp (measurable_id.prodMk measurable_const)
  have e1 : ∀ a, ∫⁻ w, pmWeight L om om' a (fold2 a w) * psi (fold2 a w, om') * q w =
      ∫⁻ b, pmWeight L om om' a b * psi (b, om') * foldKernel q a b := by
    intro a
    refine lintegral_fold2 (fun b => pmWeight L om om' a b * psi (b, om')) q ((hm' _ _ a).mul (hp _)) hq ?_ a
    intro b hb
    simp [pmWeight_zero L om om' a b hb]
  have e2 : ∀ a, ∫⁻ w, pmWeight L om' om a (fold2 a w) * psi (a, om') * q w =
      ∫⁻ b, pmWeight L om' om a b * psi (a, om') * foldKernel q a b := by
    intro a
    refine lintegral_fold2 (fun b => pmWeight L om' om a b * psi (a, om')) q ((hm' _ _ a).mul measurable_const) hq ?_ a
    intro b hb
    simp [pmWeight_zero L om' om a b hb]
  simp only [e1, e2]
  have hk : Measurable (Function.uncurry fun a b => pmWeight L om om' a b * psi (b, om') * foldKernel q a b) := by
    have hk' : Measurable fun p : (ℝ × ℝ) × (ℝ × ℝ) => foldKernel q p.1 p.2 := by
      simp only [foldKernel]; fun_prop
    exact ((hm om om').mul ((hp om').comp measurable_snd)).mul hk'
  rw [lintegral_lintegral_swap hk.aemeasurable]
  refine lintegral_congr fun b => lintegral_congr fun a => ?_
  rw [pmWeight_symm L om om' a b, foldKernel_symm q h0 h1 a b]

set_option maxHeartbeats 1000000 in
/-- Stationarity of the abstract update. -/
theorem pm_stationary (ν : Measure Ω) [IsProbabilityMeasure ν] (q : ℝ × ℝ → ℝ≥0∞) (hq : Measurable q)
    (hq1 : ∫⁻ w, q w = 1) (h0 : ∀ w, q (-w.1, w.2) = q w) (h1 : ∀ w, q (w.1, -w.2) = q w)
    (psi : (ℝ × ℝ) × Ω → ℝ≥0∞) (hpsi : Measurable psi) :
    ∫⁻ a in box, ∫⁻ om, pmDens L (a, om) * ∫⁻ w, q w * ∫⁻ om', ∫⁻ u in Ioo (0 : ℝ) 1, psi (pmStep L a om w om' u) ∂volume ∂ν ∂volume ∂ν =
      ∫⁻ a in box, ∫⁻ om, pmDens L (a, om) * psi (a, om) ∂ν := by
  have hbox := measurableSet_box
  have hr := measurable_reflect
  have hf : Measurable fun p : (ℝ × ℝ) × (ℝ × ℝ) => fold2 p.1 p.2 := by unfold fold2; fun_prop
  have hfa : ∀ a, Measurable fun w => fold2 a w := fun a => hf.comp (measurable_const.prodMk measurable_id)
  have hW := measurable_pmWeight L hL
  have hD := measurable_pmDens L hL
  have hA := measurable_pmAcc L hL
  -- the three densities of a move, as functions of everything
  let X := (Ω × Ω) × ((ℝ × ℝ) × (ℝ × ℝ))
  have hWf : Measurable fun p : X => pmWeight L p.1.1 p.1.2 p.2.1 (fold2 p.2.1 p.2.2) :=
    hW.comp (measurable_fst.prodMk ((measurable_fst.comp measurable_snd).prodMk (hf.comp measurable_snd)))
  have hAf : Measurable fun p : X => pmAcc L (p.2.1, p.1.1) (fold2 p.2.1 p.2.2, p.1.2) := by
    have h1 : Measurable fun p : X => fold2 p.2.1 p.2.2 := hf.comp measurable_snd
    have : Measurable fun p : X => (((p.2.1, p.1.1), (fold2 p.2.1 p.2.2, p.1.2)) : ((ℝ × ℝ) × Ω) × ((ℝ × ℝ) × Ω)) := by
      fun_prop
    exact hA.comp this
  have hI : Measurable fun p : X => box.indicator (1 : ℝ × ℝ → ℝ≥0∞) p.2.1 :=
    (measurable_one.indicator hbox).comp (measurable_fst.comp measurable_snd)
  have hDf : Measurable fun p : X => pmDens L (p.2.1, p.1.1) := hD.comp (by fun_prop)
  have hqf : Measurable fun p : X => q p.2.2 := hq.comp (by fun_prop)
  have hP1 : Measurable fun p : X => psi (fold2 p.2.1 p.2.2, p.1.2) := by
    have h1 : Measurable fun p : X => fold2 p.2.1 p.2.2 := hf.comp measurable_snd
    exact hpsi.comp (by fun_prop)
  have hP2 : Measurable fun p : X => psi (p.2.1, p.1.1) := hpsi.comp (by fun_prop)
  -- accepted moves at their end, accepted moves at their start, rejected moves
  let G1 : X → ℝ≥0∞ := fun p => pmWeight L p.1.1 p.1.2 p.2.1 (fold2 p.2.1 p.2.2) * psi (fold2 p.2.1 p.2.2, p.1.2) * q p.2.2
  let G2 : X → ℝ≥0∞ := fun p => pmWeight L p.1.1 p.1.2 p.2.1 (fold2 p.2.1 p.2.2) * psi (p.2.1, p.1.1) * q p.2.2
  let G3 : X → ℝ≥0∞ := fun p => box.indicator 1 p.2.1 * (pmDens L (p.2.1, p.1.1) *
    (1 - pmAcc L (p.2.1, p.1.1) (fold2 p.2.1 p.2.2, p.1.2))) * psi (p.2.1, p.1.1) * q p.2.2
  have hG1 : Measurable G1 := (hWf.mul hP1).mul hqf
  have hG2 : Measurable G2 := (hWf.mul hP2).mul hqf
  have hG3 : Measurable G3 := ((hI.mul (hDf.mul (measurable_const.sub hAf))).mul hP2).mul hqf
  -- all orders of integration agree
  have order : ∀ G : X → ℝ≥0∞, Measurable G →
      ∫⁻ a, ∫⁻ om, ∫⁻ w, ∫⁻ om', G ((om, om'), (a, w)) ∂ν ∂volume ∂ν ∂volume =
        ∫⁻ om, ∫⁻ om', ∫⁻ a, ∫⁻ w, G ((om, om'), (a, w)) ∂volume ∂volume ∂ν ∂ν := by
    intro G hG
    have s1 : ∀ a om, ∫⁻ w, ∫⁻ om', G ((om, om'), (a, w)) ∂ν = ∫⁻ om', ∫⁻ w, G ((om, om'), (a, w)) ∂volume ∂ν := by
      intro a om
      exact lintegral_lintegral_swap (hG.comp (by fun_prop : Measurable fun p : (ℝ × ℝ) × Ω => (((om, p.2), (a, p.1)) : X))).aemeasurable
    simp only [s1]
    have m1 : Measurable fun p : ((ℝ × ℝ) × Ω) × Ω => ∫⁻ w, G ((p.1.2, p.2), (p.1.1, w)) :=
      Measurable.lintegral_prod_right' (f := fun x : (((ℝ × ℝ) × Ω) × Ω) × (ℝ × ℝ) => G ((x.1.1.2, x.1.2), (x.1.1.1, x.2)))
        (hG.comp (by fun_prop))
    have m2 : Measurable fun p : (ℝ × ℝ) × Ω => ∫⁻ om', ∫⁻ w, G ((p.2, om'), (p.1, w)) ∂volume ∂ν :=
      Measurable.lintegral_prod_right' m1
    rw [lintegral_lintegral_swap m2.aemeasurable]
    refine lintegral_congr fun om => ?_
    exact lintegral_lintegral_swap (m1.comp (by fun_prop : Measurable fun p : (ℝ × ℝ) × Ω => ((p.1, om), p.2))).aemeasurable
  have inner : ∀ G : X → ℝ≥0∞, Measurable G → Measurable fun o : Ω × Ω => ∫⁻ a, ∫⁻ w, G (o, (a, w)) := by
    intro G hG
    have m1 : Measurable fun p : (Ω × Ω) × (ℝ × ℝ) => ∫⁻ w, G (p.1, (p.2, w)) :=
      Measurable.lintegral_prod_right' (f := fun x : ((Ω × Ω) × (ℝ × ℝ)) × (ℝ × ℝ) => G (x.1.1, (x.1.2, x.2))) (hG.comp (by fun_prop))
    exact Measurable.lintegral_prod_right' m1
  have swap : ∫⁻ om, ∫⁻ om', ∫⁻ a, ∫⁻ w, G1 ((om, om'), (a, w)) ∂volume ∂volume ∂ν ∂ν =
      ∫⁻ om, ∫⁻ om', ∫⁻ a, ∫⁻ w, G2 ((om, om'), (a, w)) ∂volume ∂volume ∂ν ∂ν := by
    have b : ∀ om om', ∫⁻ a, ∫⁻ w, G1 ((om, om'), (a, w)) = ∫⁻ a, ∫⁻ w, G2 ((om', om), (a, w)) :=
      fun om om' => pm_balance L hL q hq h0 h1 psi hpsi om om'
    simp only [b]
    exact lintegral_lintegral_swap ((inner G2 hG2).comp (by fun_prop : Measurable fun o : Ω × Ω => ((o.2, o.1) : Ω × Ω))).aemeasurable
  have ind : ∀ f : ℝ × ℝ → ℝ≥0∞, ∫⁻ a in box, f a = ∫⁻ a, box.indicator 1 a * f a := by
    intro f
    rw [← lintegral_indicator hbox]
    refine lintegral_congr fun a => ?_
    by_cases h : a ∈ box <;> simp [h]
  have sect : ∀ G : X → ℝ≥0∞, Measurable G → ∀ a om w, Measurable fun om' => G ((om, om'), (a, w)) :=
    fun G hG a om w => hG.comp (by fun_prop : Measurable fun om' : Ω => (((om, om'), (a, w)) : X))
  -- left-hand side
  have lhs : ∫⁻ a in box, ∫⁻ om, pmDens L (a, om) * ∫⁻ w, q w * ∫⁻ om', ∫⁻ u in Ioo (0 : ℝ) 1, psi (pmStep L a om w om' u) ∂volume ∂ν ∂volume ∂ν =
      ∫⁻ a, ∫⁻ om, ∫⁻ w, ∫⁻ om', (G1 ((om, om'), (a, w)) + G3 ((om, om'), (a, w))) ∂ν ∂volume ∂ν := by
    rw [ind]
    refine lintegral_congr fun a => ?_
    have mu : ∀ om w, Measurable fun om' => ∫⁻ u in Ioo (0 : ℝ) 1, psi (pmStep L a om w om' u) := by
      intro om w
      simp only [lintegral_pmStep]
      generalize fold2 a w = b
      have k0 : Measurable fun om' : Ω => (b, om') := measurable_const.prodMk measurable_id
      have k1 : Measurable fun om' => pmAcc L (a, om) (b, om') := hA.comp (measurable_const.prodMk k0)
      have k2 : Measurable fun om' => psi (b, om') := hpsi.comp k0
      exact (k1.mul k2).add ((measurable_const.sub k1).mul measurable_const)
    have key : ∀ om, box.indicator 1 a * (pmDens L (a, om) * ∫⁻ w, q w * ∫⁻ om', ∫⁻ u in Ioo (0 : ℝ) 1, psi (pmStep L a om w om' u) ∂volume ∂ν) =
        ∫⁻ w, ∫⁻ om', (G1 ((om, om'), (a, w)) + G3 ((om, om'), (a, w))) ∂ν := by
      intro om
      have mj : Measurable fun p : (ℝ × ℝ) × Ω => ∫⁻ u in Ioo (0 : ℝ) 1, psi (pmStep L a om p.1 p.2 u) := by
        simp only [lintegral_pmStep]
        have k0 : Measurable fun p : (ℝ × ℝ) × Ω => fold2 a p.1 := (hfa a).comp measurable_fst
        have k3 : Measurable fun p : (ℝ × ℝ) × Ω => (fold2 a p.1, p.2) := k0.prodMk measurable_snd
        have k1 : Measurable fun p : (ℝ × ℝ) × Ω => pmAcc L (a, om) (fold2 a p.1, p.2) := hA.comp (measurable_const.prodMk k3)
        have k2 : Measurable fun p : (ℝ × ℝ) × Ω => psi (fold2 a p.1, p.2) := hpsi.comp k3
        exact (k1.mul k2).add ((measurable_const.sub k1).mul measurable_const)
      have mw : Measurable fun w => ∫⁻ om', ∫⁻ u in Ioo (0 : ℝ) 1, psi (pmStep L a om w om' u) ∂volume ∂ν :=
        Measurable.lintegral_prod_right' mj
      have mqw : Measurable fun w => q w * ∫⁻ om', ∫⁻ u in Ioo (0 : ℝ) 1, psi (pmStep L a om w om' u) ∂volume ∂ν := hq.mul mw
      have mqw' : Measurable fun w => pmDens L (a, om) * (q w * ∫⁻ om', ∫⁻ u in Ioo (0 : ℝ) 1, psi (pmStep L a om w om' u) ∂volume ∂ν) :=
        mqw.const_mul _
      rw [← lintegral_const_mul _ mqw, ← lintegral_const_mul _ mqw']
      refine lintegral_congr fun w => ?_
      rw [← lintegral_const_mul _ (mu om w), ← lintegral_const_mul _ ((mu om w).const_mul _),
        ← lintegral_const_mul _ (((mu om w).const_mul _).const_mul _)]
      refine lintegral_congr fun om' => ?_
      rw [lintegral_pmStep]
      simp only [G1, G3, pmWeight]
      ring
    simp only [← key]
    rw [lintegral_const_mul']
    by_cases h : a ∈ box <;> simp [h]
  -- right-hand side
  have rhs : ∫⁻ a in box, ∫⁻ om, pmDens L (a, om) * psi (a, om) ∂ν =
      ∫⁻ a, ∫⁻ om, ∫⁻ w, ∫⁻ om', (G2 ((om, om'), (a, w)) + G3 ((om, om'), (a, w))) ∂ν ∂volume ∂ν := by
    rw [ind]
    refine lintegral_congr fun a => ?_
    have key : ∀ om, box.indicator 1 a * (pmDens L (a, om) * psi (a, om)) =
        ∫⁻ w, ∫⁻ om', (G2 ((om, om'), (a, w)) + G3 ((om, om'), (a, w))) ∂ν := by
      intro om
      have e : ∀ w om', G2 ((om, om'), (a, w)) + G3 ((om, om'), (a, w)) = box.indicator 1 a * (pmDens L (a, om) * psi (a, om)) * q w := by
        intro w om'
        simp only [G2, G3, pmWeight]
        have h1 : pmAcc L (a, om) (fold2 a w, om') + (1 - pmAcc L (a, om) (fold2 a w, om')) = 1 :=
          add_tsub_cancel_of_le (pmAcc_le L _ _)
        calc _ = box.indicator 1 a * (pmDens L (a, om) * psi (a, om)) * q w *
              (pmAcc L (a, om) (fold2 a w, om') + (1 - pmAcc L (a, om) (fold2 a w, om'))) := by ring
          _ = _ := by rw [h1, mul_one]
      simp only [e, lintegral_const, measure_univ, mul_one]
      rw [lintegral_const_mul _ hq, hq1, mul_one]
    simp only [← key]
    rw [lintegral_const_mul']
    by_cases h : a ∈ box <;> simp [h]
  have o1 := order (fun p => G1 p + G3 p) (hG1.add hG3)
  have o2 := order (fun p => G2 p + G3 p) (hG2.add hG3)
  have split : ∀ G : X → ℝ≥0∞, Measurable G → ∫⁻ om, ∫⁻ om', ∫⁻ a, ∫⁻ w, (G ((om, om'), (a, w)) + G3 ((om, om'), (a, w))) ∂volume ∂volume ∂ν ∂ν =
      (∫⁻ om, ∫⁻ om', ∫⁻ a, ∫⁻ w, G ((om, om'), (a, w)) ∂volume ∂volume ∂ν ∂ν) +
        ∫⁻ om, ∫⁻ om', ∫⁻ a, ∫⁻ w, G3 ((om, om'), (a, w)) ∂volume ∂volume ∂ν ∂ν := by
    intro G hG
    have a1 : ∀ o : Ω × Ω, ∫⁻ a, ∫⁻ w, (G (o, (a, w)) + G3 (o, (a, w))) =
        (∫⁻ a, ∫⁻ w, G (o, (a, w))) + ∫⁻ a, ∫⁻ w, G3 (o, (a, w)) := by
      intro o
      rw [← lintegral_add_left]
      · refine lintegral_congr fun a => ?_
        rw [← lintegral_add_left]
        exact hG.comp (by fun_prop)
      · exact Measurable.lintegral_prod_right' (f := fun x : (ℝ × ℝ) × (ℝ × ℝ) => G (o, x)) (hG.comp (by fun_prop))
    have a2 : ∀ om om', ∫⁻ a, ∫⁻ w, (G ((om, om'), (a, w)) + G3 ((om, om'), (a, w))) =
        (∫⁻ a, ∫⁻ w, G ((om, om'), (a, w))) + ∫⁻ a, ∫⁻ w, G3 ((om, om'), (a, w)) := fun om om' => a1 (om, om')
    simp only [a2]
    have i1 : Measurable fun om => ∫⁻ om', ∫⁻ a, ∫⁻ w, G ((om, om'), (a, w)) ∂volume ∂volume ∂ν := Measurable.lintegral_prod_right' (inner G hG)
    rw [← lintegral_add_left i1]
    refine lintegral_congr fun om => ?_
    have i2 : Measurable fun om' => ∫⁻ a, ∫⁻ w, G ((om, om'), (a, w)) :=
      (inner G hG).comp (by fun_prop : Measurable fun om' : Ω => ((om, om') : Ω × Ω))
    rw [← lintegral_add_left i2]
  have s1 := split G1 hG1
  have s2 := split G2 hG2
  exact lhs.trans (o1.trans ((s1.trans (by rw [swap])).trans (s2.symm.trans (o2.symm.trans rhs.symm))))

end

/-! ## C156 -/

variable {ι T : Type} [Fintype ι]

/-- **C156.** Let each call of `z_inverse` draw its own randomness, independently of everything before.  Start the parameters and the carried
estimate from the law with density `exp(log|estimate| - V)` on the box, times the law of the draws; do one update: the parameters, the carried
estimate and its sign still have that law. -/
theorem C156_stationary (ph : Phys ℝ ι T) (ν : Measure Ω) [IsProbabilityMeasure ν] (est : (Fin 2 → ℝ) → Ω → ℝ × ℝ) (x : ι → ℝ)
    (hV : Measurable fun a : ℝ × ℝ => ph.pot ![a.1, a.2 * ph.bmax] x)
    (he : Measurable fun s : (ℝ × ℝ) × Ω => est ![s.1.1, s.1.2 * ph.bmax] s.2)
    (q : ℝ × ℝ → ℝ≥0∞) (hq : Measurable q) (hq1 : ∫⁻ w, q w = 1) (h0 : ∀ w, q (-w.1, w.2) = q w)
    (h1 : ∀ w, q (w.1, -w.2) = q w) (psi : (ℝ × ℝ) × (ℝ × ℝ) → ℝ≥0∞) (hpsi : Measurable psi)
    (aux : ℝ × ℝ → Ω → Aux ℝ ι) (haux : ∀ a om, (aux a om).V = ph.pot ![a.1, a.2 * ph.bmax] x ∧
      (aux a om).logZ = (est ![a.1, a.2 * ph.bmax] om).1 ∧ (aux a om).sign = (est ![a.1, a.2 * ph.bmax] om).2) :
    let law := fun (a : ℝ × ℝ) (om : Ω) => ENNReal.ofReal (Real.exp ((est ![a.1, a.2 * ph.bmax] om).1 - ph.pot ![a.1, a.2 * ph.bmax] x))
    let see := fun r : ((Fin 2 → ℝ) × Aux ℝ ι) × ℕ => psi ((r.1.1 0, r.1.1 1), (r.1.2.logZ, r.1.2.sign))
    ∫⁻ a in Ico 0 2 ×ˢ Ico 0 2, ∫⁻ om, law a om * ∫⁻ w, q w * ∫⁻ om', ∫⁻ u in Ioo (0 : ℝ) 1,
        see (thetaStep ph ![w.1, w.2] (fun t => est t om') (Real.log u) x (![a.1, a.2], aux a om)) ∂volume ∂ν ∂volume ∂ν =
      ∫⁻ a in Ico 0 2 ×ˢ Ico 0 2, ∫⁻ om, law a om * psi (a, est ![a.1, a.2 * ph.bmax] om) ∂ν := by
  intro law see
  have hL : Measurable fun s : (ℝ × ℝ) × Ω => (est ![s.1.1, s.1.2 * ph.bmax] s.2).1 - ph.pot ![s.1.1, s.1.2 * ph.bmax] x :=
    (measurable_fst.comp he).sub (hV.comp measurable_fst)
  have hp : Measurable fun s : (ℝ × ℝ) × Ω => psi (s.1, est ![s.1.1, s.1.2 * ph.bmax] s.2) := hpsi.comp (measurable_fst.prodMk he)
  refine Eq.trans ?_ (pm_stationary _ hL ν q hq hq1 h0 h1 _ hp)
  refine lintegral_congr fun a => lintegral_congr fun om => ?_
  congr 1
  refine lintegral_congr fun w => ?_
  congr 1
  refine lintegral_congr fun om' => lintegral_congr fun u => ?_
  have hprop : thetaProposal ![a.1, a.2] ![w.1, w.2] = ![(fold2 a w).1, (fold2 a w).2] := by
    funext i
    fin_cases i <;> simp [thetaProposal, fold2]
  have ho := outside_iff (thetaProposal ![a.1, a.2] ![w.1, w.2])
  rw [hprop, inBox_pair] at ho
  obtain ⟨e1, e2, e3⟩ := haux a om
  simp only [see, thetaStep, hprop, scaleTheta_eq, Spec.scaled, Matrix.cons_val_zero, Matrix.cons_val_one, e1, e2, pmStep]
  by_cases hb : fold2 a w ∈ box
  · have hn : ¬ outsideBox ![(fold2 a w).1, (fold2 a w).2] := fun h => (ho.1 h) hb
    simp only [hn, hb, if_false, true_and]
    split <;> simp [e2, e3]
  · have hn : outsideBox ![(fold2 a w).1, (fold2 a w).2] := ho.2 hb
    simp [hn, hb, e2, e3]

/-- **C156.** The same for the update given a table. -/
theorem C156_stationary_given_table (ph : Phys ℝ ι T) (ν : Measure Ω) [IsProbabilityMeasure ν] (est : (Fin 2 → ℝ) → Ω → ℝ × ℝ) (x : ι → ℝ)
    (tab : T) (hV : Measurable fun a : ℝ × ℝ => ph.pot ![a.1, a.2 * ph.bmax] x)
    (hT : Measurable fun a : ℝ × ℝ => ph.nlt ![a.1, a.2 * ph.bmax] x tab)
    (he : Measurable fun s : (ℝ × ℝ) × Ω => est ![s.1.1, s.1.2 * ph.bmax] s.2)
    (q : ℝ × ℝ → ℝ≥0∞) (hq : Measurable q) (hq1 : ∫⁻ w, q w = 1) (h0 : ∀ w, q (-w.1, w.2) = q w)
    (h1 : ∀ w, q (w.1, -w.2) = q w) (psi : (ℝ × ℝ) × (ℝ × ℝ) → ℝ≥0∞) (hpsi : Measurable psi)
    (aux : ℝ × ℝ → Ω → Aux ℝ ι) (haux : ∀ a om, (aux a om).V = ph.pot ![a.1, a.2 * ph.bmax] x ∧
      (aux a om).logZ = (est ![a.1, a.2 * ph.bmax] om).1 ∧ (aux a om).sign = (est ![a.1, a.2 * ph.bmax] om).2) :
    let law := fun (a : ℝ × ℝ) (om : Ω) => ENNReal.ofReal (Real.exp ((est ![a.1, a.2 * ph.bmax] om).1 - ph.pot ![a.1, a.2 * ph.bmax] x -
      ph.nlt ![a.1, a.2 * ph.bmax] x tab))
    let see := fun r : ((Fin 2 → ℝ) × Aux ℝ ι × ℝ) × ℕ => psi ((r.1.1 0, r.1.1 1), (r.1.2.1.logZ, r.1.2.1.sign))
    ∫⁻ a in Ico 0 2 ×ˢ Ico 0 2, ∫⁻ om, law a om * ∫⁻ w, q w * ∫⁻ om', ∫⁻ u in Ioo (0 : ℝ) 1,
        see (thetaStepT ph ![w.1, w.2] (fun t => est t om') (Real.log u) x tab
          (![a.1, a.2], aux a om, ph.nlt ![a.1, a.2 * ph.bmax] x tab)) ∂volume ∂ν ∂volume ∂ν =
      ∫⁻ a in Ico 0 2 ×ˢ Ico 0 2, ∫⁻ om, law a om * psi (a, est ![a.1, a.2 * ph.bmax] om) ∂ν := by
  intro law see
  have hL : Measurable fun s : (ℝ × ℝ) × Ω => (est ![s.1.1, s.1.2 * ph.bmax] s.2).1 - ph.pot ![s.1.1, s.1.2 * ph.bmax] x -
      ph.nlt ![s.1.1, s.1.2 * ph.bmax] x tab :=
    ((measurable_fst.comp he).sub (hV.comp measurable_fst)).sub (hT.comp measurable_fst)
  have hp : Measurable fun s : (ℝ × ℝ) × Ω => psi (s.1, est ![s.1.1, s.1.2 * ph.bmax] s.2) := hpsi.comp (measurable_fst.prodMk he)
  refine Eq.trans ?_ (pm_stationary _ hL ν q hq hq1 h0 h1 _ hp)
  refine lintegral_congr fun a => lintegral_congr fun om => ?_
  congr 1
  refine lintegral_congr fun w => ?_
  congr 1
  refine lintegral_congr fun om' => lintegral_congr fun u => ?_
  have hprop : thetaProposal ![a.1, a.2] ![w.1, w.2] = ![(fold2 a w).1, (fold2 a w).2] := by
    funext i
    fin_cases i <;> simp [thetaProposal, fold2]
  have ho := outside_iff (thetaProposal ![a.1, a.2] ![w.1, w.2])
  rw [hprop, inBox_pair] at ho
  obtain ⟨e1, e2, e3⟩ := haux a om
  simp only [see, thetaStepT, hprop, scaleTheta_eq, Spec.scaled, Matrix.cons_val_zero, Matrix.cons_val_one, e1, e2, pmStep]
  by_cases hb : fold2 a w ∈ box
  · have hn : ¬ outsideBox ![(fold2 a w).1, (fold2 a w).2] := fun h => (ho.1 h) hb
    simp only [hn, hb, if_false, true_and]
    split <;> simp [e2, e3]
  · have hn : outsideBox ![(fold2 a w).1, (fold2 a w).2] := ho.2 hb
    simp [hn, hb, e2, e3]

/-- **C156 (signed averages).** Under that law, if the signed estimate has mean `c/z`, averages weighted by the sign are averages under the
posterior of the parameters, whose density is `exp(-V)/z`. -/
theorem C156_signed_average (ν : Measure Ω) [IsProbabilityMeasure ν] (V z : ℝ × ℝ → ℝ) (logZ sign : ℝ × ℝ → Ω → ℝ) (c : ℝ) (hc : c ≠ 0)
    (hmean : ∀ a ∈ Ico (0 : ℝ) 2 ×ˢ Ico (0 : ℝ) 2, ∫ om, sign a om * Real.exp (logZ a om) ∂ν = c / z a) (f : ℝ × ℝ → ℝ) :
    (∫ a in Ico 0 2 ×ˢ Ico 0 2, ∫ om, sign a om * f a * Real.exp (logZ a om - V a) ∂ν) /
        (∫ a in Ico 0 2 ×ˢ Ico 0 2, ∫ om, sign a om * Real.exp (logZ a om - V a) ∂ν) =
      (∫ a in Ico 0 2 ×ˢ Ico 0 2, f a * (Real.exp (-V a) / z a)) / (∫ a in Ico 0 2 ×ˢ Ico 0 2, Real.exp (-V a) / z a) := by
  have hS : MeasurableSet (Ico (0 : ℝ) 2 ×ˢ Ico (0 : ℝ) 2) := measurableSet_Ico.prod measurableSet_Ico
  have key : ∀ g : ℝ × ℝ → ℝ, ∫ a in Ico 0 2 ×ˢ Ico 0 2, ∫ om, sign a om * g a * Real.exp (logZ a om - V a) ∂ν =
      c * ∫ a in Ico 0 2 ×ˢ Ico 0 2, g a * (Real.exp (-V a) / z a) := by
    intro g
    rw [← integral_const_mul]
    refine setIntegral_congr_fun hS fun a ha => ?_
    have e : ∀ om, sign a om * g a * Real.exp (logZ a om - V a) = (g a * Real.exp (-V a)) * (sign a om * Real.exp (logZ a om)) := by
      intro om
      rw [sub_eq_add_neg, Real.exp_add]
      ring
    simp only [e]
    rw [integral_const_mul, hmean a ha]
    ring
  have k1 := key f
  have k2 := key fun _ => 1
  simp only [mul_one, one_mul] at k2
  rw [k1, k2, mul_div_mul_left _ _ hc]

/-- Without the sign the averages are those of the magnitude: a fair sign makes the estimate's mean vanish, but not that of its magnitude. -/
theorem C156_unsigned_false : ¬ ∀ (Ω : Type) (_ : MeasurableSpace Ω) (ν : Measure Ω) (_ : IsProbabilityMeasure ν) (z : ℝ × ℝ → ℝ)
      (logZ sign : ℝ × ℝ → Ω → ℝ) (c : ℝ), c ≠ 0 →
      (∀ a ∈ Ico (0 : ℝ) 2 ×ˢ Ico (0 : ℝ) 2, ∫ om, sign a om * Real.exp (logZ a om) ∂ν = c / z a) →
      ∃ c' : ℝ, ∀ a ∈ Ico (0 : ℝ) 2 ×ˢ Ico (0 : ℝ) 2, ∫ om, Real.exp (logZ a om) ∂ν = c' / z a := by
  intro h
  -- one draw among two points: the estimate at the origin is +3 or -1 with equal probability, elsewhere always +1
  have hprob : IsProbabilityMeasure ((2⁻¹ : ℝ≥0∞) • (Measure.dirac true + Measure.dirac false) : Measure Bool) := by
    constructor
    simp [ENNReal.inv_two_add_inv_two]
  have hint : ∀ g : Bool → ℝ, ∫ om, g om ∂((2⁻¹ : ℝ≥0∞) • (Measure.dirac true + Measure.dirac false) : Measure Bool) =
      (g true + g false) / 2 := by
    intro g
    rw [integral_smul_measure, integral_add_measure Integrable.of_finite Integrable.of_finite, integral_dirac, integral_dirac]
    simp
    ring
  obtain ⟨c', hc'⟩ := h Bool inferInstance ((2⁻¹ : ℝ≥0∞) • (Measure.dirac true + Measure.dirac false)) hprob (fun _ => 1)
    (fun a om => if a = (0, 0) then (if om then Real.log 3 else 0) else 0)
    (fun a om => if a = (0, 0) then (if om then 1 else -1) else 1) 1 one_ne_zero (by
      intro a _
      rw [hint]
      by_cases ha : a = (0, 0)
      · simp only [ha, if_true]
        rw [Real.exp_log (by norm_num)]
        norm_num
      · simp [ha])
  have k1 := hc' (0, 0) (by simp)
  have k2 := hc' (1, 1) (by simp)
  rw [hint] at k1 k2
  simp only [if_true] at k1
  rw [Real.exp_log (by norm_num)] at k1
  have : ((1, 1) : ℝ × ℝ) ≠ (0, 0) := by simp
  simp only [this, if_false] at k2
  norm_num at k1 k2
  linarith

/-- A random estimate meeting the hypotheses of `C156_signed_average`: +3 or -1 with equal probability, whose mean is 1. -/
example : ∫ om, (if om then (1 : ℝ) else -1) * Real.exp (if om then Real.log 3 else 0)
    ∂((2⁻¹ : ℝ≥0∞) • (Measure.dirac true + Measure.dirac false) : Measure Bool) = 1 / 1 := by
  rw [integral_smul_measure, integral_add_measure Integrable.of_finite Integrable.of_finite, integral_dirac, integral_dirac]
  simp only [if_true, Bool.false_eq_true, if_false]
  rw [Real.exp_log (by norm_num)]
  norm_num

end GeNSIT
