import Verif.Sampler.Measure
import Mathlib.MeasureTheory.Measure.Lebesgue.Basic
import Mathlib.MeasureTheory.Measure.Prod

/-!
# C92: the parameter update leaves the posterior of the parameters invariant
-/

set_option linter.unusedSectionVars false

open MeasureTheory Set
open scoped ENNReal

namespace GeNSIT

theorem measurable_reflect : Measurable (reflect : ℝ → ℝ) := by
  unfold reflect
  refine Measurable.ite (measurableSet_lt measurable_id measurable_const) measurable_neg ?_
  refine Measurable.ite (measurableSet_lt measurable_const measurable_id) ?_ measurable_id
  fun_prop

/-- Folding at the two boundaries: the law of the reflected step. -/
theorem lintegral_reflect (h k : ℝ → ℝ≥0∞) (hh : Measurable h) (hk : Measurable k)
    (hs : ∀ b, b ∉ Ico (0 : ℝ) 2 → h b = 0) (a : ℝ) :
    ∫⁻ w, h (reflect (a + w)) * k w = ∫⁻ b, h b * (k (b - a) + k (-b - a) + k (4 - b - a)) := by
  have e1 : ∫⁻ w, h (reflect (a + w)) * k w = ∫⁻ v, h (reflect v) * k (v - a) := by
    rw [← lintegral_add_left_eq_self (fun v => h (reflect v) * k (v - a)) a]
    simp
  have e2 : ∫⁻ v, h (reflect v) * k (v - a) =
      ∫⁻ v, (h v * k (v - a) + h (-v) * k (v - a) + h (4 - v) * k (v - a)) := by
    refine lintegral_congr_ae ?_
    have hz : ∀ᵐ v : ℝ, v ≠ 0 := by
      rw [ae_iff]; simp
    filter_upwards [hz] with v hv
    rcases lt_trichotomy v 0 with h0 | h0 | h0
    · have r : reflect v = -v := by simp [reflect, h0]
      rw [r, hs v (by simp [h0]), hs (4 - v) (by simp; intro _; linarith)]
      simp
    · exact absurd h0 hv
    · rcases le_or_gt v 2 with h2 | h2
      · have r : reflect v = v := by simp [reflect, not_lt.mpr h0.le, not_lt.mpr h2]
        rw [r, hs (-v) (by simp [h0]), hs (4 - v) (by simp; intro _; linarith)]
        simp
      · have r : reflect v = 4 - v := by
          simp only [reflect, not_lt.mpr h0.le, h2, if_true, if_false]; ring
        rw [r, hs v (by simp [h2.le]), hs (-v) (by simp [h0])]
        simp
  have e3 : ∫⁻ v, h (-v) * k (v - a) = ∫⁻ b, h b * k (-b - a) := by
    rw [← lintegral_neg_eq_self (fun b => h b * k (-b - a))]
    simp
  have e4 : ∫⁻ v, h (4 - v) * k (v - a) = ∫⁻ b, h b * k (4 - b - a) := by
    rw [← lintegral_sub_left_eq_self (fun b => h b * k (4 - b - a)) 4]
    simp
  rw [e1, e2, lintegral_add_left (by fun_prop), lintegral_add_left (by fun_prop), e3, e4,
    ← lintegral_add_left (by fun_prop), ← lintegral_add_left (by fun_prop)]
  refine lintegral_congr fun b => ?_
  ring

/-- The nine images of a target. -/
noncomputable def foldKernel (q : ℝ × ℝ → ℝ≥0∞) (a b : ℝ × ℝ) : ℝ≥0∞ :=
  let Q := fun w0 => q (w0, b.2 - a.2) + q (w0, -b.2 - a.2) + q (w0, 4 - b.2 - a.2)
  Q (b.1 - a.1) + Q (-b.1 - a.1) + Q (4 - b.1 - a.1)

theorem foldKernel_symm (q : ℝ × ℝ → ℝ≥0∞) (h0 : ∀ w, q (-w.1, w.2) = q w) (h1 : ∀ w, q (w.1, -w.2) = q w)
    (a b : ℝ × ℝ) : foldKernel q a b = foldKernel q b a := by
  have s0 : ∀ x y, q (-x, y) = q (x, y) := fun x y => h0 (x, y)
  have s1 : ∀ x y, q (x, -y) = q (x, y) := fun x y => h1 (x, y)
  have t0 : ∀ y, q (a.1 - b.1, y) = q (b.1 - a.1, y) := fun y => by rw [← s0, neg_sub]
  have t1 : ∀ x, q (x, a.2 - b.2) = q (x, b.2 - a.2) := fun x => by rw [← s1, neg_sub]
  simp only [foldKernel, t0, t1]
  rw [show -a.1 - b.1 = -b.1 - a.1 by ring, show 4 - a.1 - b.1 = 4 - b.1 - a.1 by ring,
    show -a.2 - b.2 = -b.2 - a.2 by ring, show 4 - a.2 - b.2 = 4 - b.2 - a.2 by ring]

/-- The proposal in two coordinates. -/
noncomputable def fold2 (a w : ℝ × ℝ) : ℝ × ℝ := (reflect (a.1 + w.1), reflect (a.2 + w.2))

/-- The box of the parameters. -/
def box : Set (ℝ × ℝ) := Ico 0 2 ×ˢ Ico 0 2

theorem measurableSet_box : MeasurableSet box := measurableSet_Ico.prod measurableSet_Ico

theorem lintegral_fold2 (H q : ℝ × ℝ → ℝ≥0∞) (hH : Measurable H) (hq : Measurable q)
    (hs : ∀ b, b ∉ box → H b = 0) (a : ℝ × ℝ) :
    ∫⁻ w, H (fold2 a w) * q w = ∫⁻ b, H b * foldKernel q a b := by
  have hr := measurable_reflect
  have m1 : Measurable fun w : ℝ × ℝ => H (fold2 a w) * q w := by
    unfold fold2; fun_prop
  rw [Measure.volume_eq_prod, lintegral_prod _ m1.aemeasurable]
  have in1 : ∀ w0 : ℝ, ∫⁻ w1, H (fold2 a (w0, w1)) * q (w0, w1) =
      ∫⁻ b1, H (reflect (a.1 + w0), b1) * (q (w0, b1 - a.2) + q (w0, -b1 - a.2) + q (w0, 4 - b1 - a.2)) := by
    intro w0
    refine lintegral_reflect (fun b1 => H (reflect (a.1 + w0), b1)) (fun w1 => q (w0, w1)) (by fun_prop)
      (by fun_prop) ?_ a.2
    intro b hb
    exact hs _ fun hm => hb hm.2
  simp only [in1]
  rw [lintegral_lintegral_swap (by fun_prop)]
  have in0 : ∀ b1 : ℝ, ∫⁻ w0, H (reflect (a.1 + w0), b1) *
        (q (w0, b1 - a.2) + q (w0, -b1 - a.2) + q (w0, 4 - b1 - a.2)) =
      ∫⁻ b0, H (b0, b1) * foldKernel q a (b0, b1) := by
    intro b1
    refine lintegral_reflect (fun b0 => H (b0, b1))
      (fun w0 => q (w0, b1 - a.2) + q (w0, -b1 - a.2) + q (w0, 4 - b1 - a.2)) (by fun_prop) (by fun_prop) ?_ a.1
    intro b hb
    exact hs _ fun hm => hb hm.1
  simp only [in0]
  have m2 : Measurable fun b : ℝ × ℝ => H b * foldKernel q a b := by
    simp only [foldKernel]; fun_prop
  rw [lintegral_prod_symm _ m2.aemeasurable]

/-- Detailed balance of the reflected random walk, for any symmetric weight of pairs of states. -/
theorem fold2_balance (q : ℝ × ℝ → ℝ≥0∞) (hq : Measurable q) (h0 : ∀ w, q (-w.1, w.2) = q w)
    (h1 : ∀ w, q (w.1, -w.2) = q w) (m : ℝ × ℝ → ℝ × ℝ → ℝ≥0∞) (hm : Measurable (Function.uncurry m))
    (hsym : ∀ a b, m a b = m b a) (hs : ∀ a b, b ∉ box → m a b = 0) (psi : ℝ × ℝ → ℝ≥0∞) (hpsi : Measurable psi) :
    ∫⁻ a, ∫⁻ w, m a (fold2 a w) * psi (fold2 a w) * q w = ∫⁻ a, ∫⁻ w, m a (fold2 a w) * psi a * q w := by
  have hm' : ∀ a, Measurable (m a) := fun a => hm.comp (measurable_const.prodMk measurable_id)
  have e1 : ∀ a, ∫⁻ w, m a (fold2 a w) * psi (fold2 a w) * q w = ∫⁻ b, m a b * psi b * foldKernel q a b := by
    intro a
    refine lintegral_fold2 (fun b => m a b * psi b) q ((hm' a).mul hpsi) hq ?_ a
    intro b hb
    simp [hs a b hb]
  have e2 : ∀ a, ∫⁻ w, m a (fold2 a w) * psi a * q w = ∫⁻ b, m a b * psi a * foldKernel q a b := by
    intro a
    refine lintegral_fold2 (fun b => m a b * psi a) q ((hm' a).mul measurable_const) hq ?_ a
    intro b hb
    simp [hs a b hb]
  simp only [e1, e2]
  have hk : Measurable (Function.uncurry fun a b => m a b * psi b * foldKernel q a b) := by
    have hk' : Measurable fun p : (ℝ × ℝ) × (ℝ × ℝ) => foldKernel q p.1 p.2 := by
      simp only [foldKernel]; fun_prop
    exact (hm.mul (hpsi.comp measurable_snd)).mul hk'
  rw [lintegral_lintegral_swap hk.aemeasurable]
  refine lintegral_congr fun b => lintegral_congr fun a => ?_
  rw [hsym a b, foldKernel_symm q h0 h1 a b]

/-! ## The acceptance rule -/

variable {K ι T : Type} [Field K] [LinearOrder K] [IsStrictOrderedRing K] [Fintype ι]

/-- The parameters as the physical model sees them: the second one is multiplied by `bmax`. -/
def Spec.scaled {K : Type} [Mul K] (bmax : K) (th : Fin 2 → K) : Fin 2 → K := ![th 0, th 1 * bmax]

theorem scaleTheta_eq (b : K) (th : Fin 2 → K) : scaleTheta b th = Spec.scaled b th := by
  funext i
  fin_cases i <;> simp [scaleTheta, Spec.scaled]

/-- **C92.** The update of the parameters accepts the proposal exactly when it lies in the box and the logarithm of the uniform draw is below
the difference of the log posteriors (log inverse normalising constant minus potential), the carried values being right. -/
theorem C92_accept_iff (ph : Phys K ι T) (walk : Fin 2 → K) (z : (Fin 2 → K) → K × K) (logU : K) (x : ι → K)
    (th : Fin 2 → K) (aux : Aux K ι) (hV : aux.V = ph.pot (Spec.scaled ph.bmax th) x)
    (hz : aux.logZ = (z (Spec.scaled ph.bmax th)).1) :
    let lp := fun t => (z (Spec.scaled ph.bmax t)).1 - ph.pot (Spec.scaled ph.bmax t) x
    (Spec.InBox (thetaProposal th walk) ∧ logU < lp (thetaProposal th walk) - lp th →
      (thetaStep ph walk z logU x (th, aux)).1.1 = thetaProposal th walk ∧ (thetaStep ph walk z logU x (th, aux)).2 = 1) ∧
    (¬ (Spec.InBox (thetaProposal th walk) ∧ logU < lp (thetaProposal th walk) - lp th) →
      (thetaStep ph walk z logU x (th, aux)).1.1 = th ∧ (thetaStep ph walk z logU x (th, aux)).2 = 0) := by
  intro lp
  have ho := outside_iff (thetaProposal th walk)
  unfold thetaStep
  by_cases hb : Spec.InBox (thetaProposal th walk)
  · have hn : ¬ outsideBox (thetaProposal th walk) := fun h => (ho.1 h) hb
    simp only [hn, if_false, hb, true_and, scaleTheta_eq, hV, hz, lp]
    split <;> simp_all
  · have hn : outsideBox (thetaProposal th walk) := ho.2 hb
    simp [hn, hb]

/-- **C92.** The same given a table: the log likelihood of the table is added to the log posterior. -/
theorem C92_accept_given_table_iff (ph : Phys K ι T) (walk : Fin 2 → K) (z : (Fin 2 → K) → K × K) (logU : K) (x : ι → K)
    (tab : T) (th : Fin 2 → K) (aux : Aux K ι) (l : K) (hV : aux.V = ph.pot (Spec.scaled ph.bmax th) x)
    (hz : aux.logZ = (z (Spec.scaled ph.bmax th)).1) (hl : l = ph.nlt (Spec.scaled ph.bmax th) x tab) :
    let lp := fun t => (z (Spec.scaled ph.bmax t)).1 - ph.pot (Spec.scaled ph.bmax t) x -
      ph.nlt (Spec.scaled ph.bmax t) x tab
    (Spec.InBox (thetaProposal th walk) ∧ logU < lp (thetaProposal th walk) - lp th →
      (thetaStepT ph walk z logU x tab (th, aux, l)).1.1 = thetaProposal th walk ∧ (thetaStepT ph walk z logU x tab (th, aux, l)).2 = 1) ∧
    (¬ (Spec.InBox (thetaProposal th walk) ∧ logU < lp (thetaProposal th walk) - lp th) →
      (thetaStepT ph walk z logU x tab (th, aux, l)).1.1 = th ∧ (thetaStepT ph walk z logU x tab (th, aux, l)).2 = 0) := by
  intro lp
  have ho := outside_iff (thetaProposal th walk)
  unfold thetaStepT
  by_cases hb : Spec.InBox (thetaProposal th walk)
  · have hn : ¬ outsideBox (thetaProposal th walk) := fun h => (ho.1 h) hb
    simp only [hn, if_false, hb, true_and, scaleTheta_eq, hV, hz, hl, lp]
    split <;> simp_all
  · have hn : outsideBox (thetaProposal th walk) := ho.2 hb
    simp [hn, hb]

example : (thetaStep demoPhys ![1 / 2, 0] (fun _ => (0, 1)) (-1) (fun _ => 3)
    (![1, 1], { V := 3, gradV := fun _ => 1, logZ := 0, sign := 1 })).2 = 1 := by decide +kernel

/-! ## Stationarity -/

/-- One update as a function of the state, the step of the walk and the uniform draw: the abstract form of the update. -/
noncomputable def metroStep (L : ℝ × ℝ → ℝ) (a w : ℝ × ℝ) (u : ℝ) : ℝ × ℝ :=
  open Classical in if fold2 a w ∈ box ∧ Real.log u < L (fold2 a w) - L a then fold2 a w else a

/-- The acceptance probability. -/
noncomputable def metroAcc (L : ℝ × ℝ → ℝ) (a b : ℝ × ℝ) : ℝ≥0∞ :=
  box.indicator (fun b => min 1 (ENNReal.ofReal (Real.exp (L b - L a)))) b

theorem metroAcc_le (L : ℝ × ℝ → ℝ) (a b : ℝ × ℝ) : metroAcc L a b ≤ 1 := by
  unfold metroAcc
  by_cases h : b ∈ box
  · rw [indicator_of_mem h]; exact min_le_left _ _
  · rw [indicator_of_notMem h]; exact zero_le

theorem log_lt_set (d : ℝ) : {u : ℝ | u ∈ Ioo (0 : ℝ) 1 ∧ Real.log u < d} = Ioo 0 (min 1 (Real.exp d)) := by
  ext u
  simp only [Set.mem_ofPred_eq, Set.mem_Ioo, lt_min_iff]
  constructor
  · rintro ⟨⟨h0, h1⟩, h2⟩
    exact ⟨h0, h1, (Real.log_lt_iff_lt_exp h0).1 h2⟩
  · rintro ⟨h0, h1, h2⟩
    exact ⟨⟨h0, h1⟩, (Real.log_lt_iff_lt_exp h0).2 h2⟩

theorem volume_log_lt (d : ℝ) :
    volume (Ioo (0 : ℝ) (min 1 (Real.exp d))) = min 1 (ENNReal.ofReal (Real.exp d)) := by
  rw [Real.volume_Ioo, sub_zero]
  rcases le_total 1 (Real.exp d) with h | h
  · rw [min_eq_left h, min_eq_left]
    · simp
    · rw [← ENNReal.ofReal_one]
      exact ENNReal.ofReal_le_ofReal h
  · rw [min_eq_right h, min_eq_right]
    rw [← ENNReal.ofReal_one]
    exact ENNReal.ofReal_le_ofReal h

theorem lintegral_metroStep (L : ℝ × ℝ → ℝ) (a w : ℝ × ℝ) (psi : ℝ × ℝ → ℝ≥0∞) :
    ∫⁻ u in Ioo (0 : ℝ) 1, psi (metroStep L a w u) =
      metroAcc L a (fold2 a w) * psi (fold2 a w) + (1 - metroAcc L a (fold2 a w)) * psi a := by
  by_cases hb : fold2 a w ∈ box
  · set d := L (fold2 a w) - L a with hd
    have hA : metroAcc L a (fold2 a w) = min 1 (ENNReal.ofReal (Real.exp d)) := by
      simp [metroAcc, hb, hd]
    have hset : Ioo (0 : ℝ) 1 = Ioo 0 (min 1 (Real.exp d)) ∪ (Ioo (0 : ℝ) 1 \ Ioo 0 (min 1 (Real.exp d))) := by
      rw [union_sdiff_cancel]
      exact Ioo_subset_Ioo le_rfl (min_le_left _ _)
    rw [hset, lintegral_union (measurableSet_Ioo.diff measurableSet_Ioo) disjoint_sdiff_right]
    have h1 : ∫⁻ u in Ioo (0 : ℝ) (min 1 (Real.exp d)), psi (metroStep L a w u) =
        metroAcc L a (fold2 a w) * psi (fold2 a w) := by
      rw [setLIntegral_congr_fun (g := fun _ => psi (fold2 a w)) measurableSet_Ioo]
      · rw [setLIntegral_const, volume_log_lt, hA, mul_comm]
      · intro u hu
        rw [← log_lt_set] at hu
        simp [metroStep, hb, ← hd, hu.2]
    have h2 : ∫⁻ u in Ioo (0 : ℝ) 1 \ Ioo 0 (min 1 (Real.exp d)), psi (metroStep L a w u) =
        (1 - metroAcc L a (fold2 a w)) * psi a := by
      rw [setLIntegral_congr_fun (g := fun _ => psi a) (measurableSet_Ioo.diff measurableSet_Ioo)]
      · rw [setLIntegral_const, measure_sdiff (Ioo_subset_Ioo le_rfl (min_le_left _ _)) measurableSet_Ioo.nullMeasurableSet
          (by rw [volume_log_lt]; exact ne_top_of_le_ne_top ENNReal.one_ne_top (min_le_left _ _)), volume_log_lt, hA, mul_comm]
        simp
      · intro u hu
        have : ¬ Real.log u < d := by
          intro h
          refine hu.2 ?_
          rw [← log_lt_set]
          exact ⟨hu.1, h⟩
        simp [metroStep, hb, ← hd, this]
    rw [h1, h2]
  · have hA : metroAcc L a (fold2 a w) = 0 := by simp [metroAcc, hb]
    simp [metroStep, hb, hA]

/-- The posterior density of the parameters in the box, up to a constant. -/
noncomputable def Spec.posterior (L : ℝ × ℝ → ℝ) (a : ℝ × ℝ) : ℝ≥0∞ := ENNReal.ofReal (Real.exp (L a))

theorem metro_stationary (L : ℝ × ℝ → ℝ) (hL : Measurable L) (q : ℝ × ℝ → ℝ≥0∞) (hq : Measurable q)
    (hq1 : ∫⁻ w, q w = 1) (h0 : ∀ w, q (-w.1, w.2) = q w) (h1 : ∀ w, q (w.1, -w.2) = q w)
    (psi : ℝ × ℝ → ℝ≥0∞) (hpsi : Measurable psi) :
    ∫⁻ a in box, Spec.posterior L a * ∫⁻ w, q w * ∫⁻ u in Ioo (0 : ℝ) 1, psi (metroStep L a w u) =
      ∫⁻ a in box, Spec.posterior L a * psi a := by
  have hbox := measurableSet_box
  have hr := measurable_reflect
  have hpi : Measurable (Spec.posterior L) := by unfold Spec.posterior; fun_prop
  have hA : Measurable fun p : (ℝ × ℝ) × (ℝ × ℝ) => metroAcc L p.1 p.2 := by
    have : (fun p : (ℝ × ℝ) × (ℝ × ℝ) => metroAcc L p.1 p.2) =
        (Prod.snd ⁻¹' box).indicator fun p => min 1 (ENNReal.ofReal (Real.exp (L p.2 - L p.1))) := by
      funext p
      by_cases h : p.2 ∈ box
      · simp [metroAcc, h]
      · simp [metroAcc, h]
    rw [this]
    exact Measurable.indicator (by fun_prop) (measurable_snd hbox)
  have hf : Measurable fun p : (ℝ × ℝ) × (ℝ × ℝ) => fold2 p.1 p.2 := by unfold fold2; fun_prop
  have hAf : Measurable fun p : (ℝ × ℝ) × (ℝ × ℝ) => metroAcc L p.1 (fold2 p.1 p.2) :=
    hA.comp (measurable_fst.prodMk hf)
  -- the symmetric weight
  let m : ℝ × ℝ → ℝ × ℝ → ℝ≥0∞ := fun a b =>
    box.indicator 1 a * (Spec.posterior L a * metroAcc L a b)
  have hm : Measurable (Function.uncurry m) := by
    have i1 : Measurable fun p : (ℝ × ℝ) × (ℝ × ℝ) => box.indicator (1 : ℝ × ℝ → ℝ≥0∞) p.1 :=
      (measurable_one.indicator hbox).comp measurable_fst
    exact i1.mul ((hpi.comp measurable_fst).mul hA)
  have hval : ∀ a b, b ∈ box → Spec.posterior L a * metroAcc L a b = min (Spec.posterior L a) (Spec.posterior L b) := by
    intro a b hb
    unfold Spec.posterior metroAcc
    rw [indicator_of_mem hb, mul_min, mul_one, ← ENNReal.ofReal_mul (Real.exp_nonneg _), ← Real.exp_add]
    congr 3
    ring
  have hs : ∀ a b, b ∉ box → m a b = 0 := by
    intro a b hb
    simp [m, metroAcc, hb]
  have hsym : ∀ a b, m a b = m b a := by
    intro a b
    by_cases ha : a ∈ box
    · by_cases hb : b ∈ box
      · simp only [m, hval a b hb, hval b a ha, indicator_of_mem ha, indicator_of_mem hb]
        rw [min_comm]; rfl
      · rw [hs a b hb]; simp [m, hb]
    · rw [hs b a ha]; simp [m, ha]
  have hbal := fold2_balance q hq h0 h1 m hm hsym hs psi hpsi
  -- the update, integrated over the uniform draw
  have key : ∀ a, box.indicator 1 a * (Spec.posterior L a * ∫⁻ w, q w * ∫⁻ u in Ioo (0 : ℝ) 1, psi (metroStep L a w u)) =
      (∫⁻ w, m a (fold2 a w) * psi (fold2 a w) * q w) +
        ∫⁻ w, box.indicator 1 a * (Spec.posterior L a * (1 - metroAcc L a (fold2 a w))) * psi a * q w := by
    intro a
    have mA : Measurable fun w => metroAcc L a (fold2 a w) := hAf.comp (measurable_const.prodMk measurable_id)
    have mf : Measurable fun w => fold2 a w := hf.comp (measurable_const.prodMk measurable_id)
    rw [← lintegral_add_left, ← lintegral_const_mul, ← lintegral_const_mul]
    · refine lintegral_congr fun w => ?_
      rw [lintegral_metroStep]
      simp only [m]
      ring
    · have : Measurable fun w => q w * (metroAcc L a (fold2 a w) * psi (fold2 a w) +
          (1 - metroAcc L a (fold2 a w)) * psi a) := by fun_prop
      simpa only [lintegral_metroStep] using this.const_mul _
    · have : Measurable fun w => q w * (metroAcc L a (fold2 a w) * psi (fold2 a w) +
          (1 - metroAcc L a (fold2 a w)) * psi a) := by fun_prop
      simpa only [lintegral_metroStep] using this
    · simp only [m]; fun_prop
  have ind : ∀ f : ℝ × ℝ → ℝ≥0∞, ∫⁻ a in box, f a = ∫⁻ a, box.indicator 1 a * f a := by
    intro f
    rw [← lintegral_indicator hbox]
    refine lintegral_congr fun a => ?_
    by_cases h : a ∈ box <;> simp [h]
  rw [ind, ind]
  simp only [key]
  have mm : Measurable fun p : (ℝ × ℝ) × (ℝ × ℝ) => m p.1 (fold2 p.1 p.2) := hm.comp (measurable_fst.prodMk hf)
  have M1 : Measurable fun a => ∫⁻ w, m a (fold2 a w) * psi (fold2 a w) * q w :=
    Measurable.lintegral_prod_right (f := fun a w : ℝ × ℝ => m a (fold2 a w) * psi (fold2 a w) * q w)
      ((mm.mul (hpsi.comp hf)).mul (hq.comp measurable_snd))
  have M2 : Measurable fun a => ∫⁻ w, m a (fold2 a w) * psi a * q w :=
    Measurable.lintegral_prod_right (f := fun a w : ℝ × ℝ => m a (fold2 a w) * psi a * q w)
      ((mm.mul (hpsi.comp measurable_fst)).mul (hq.comp measurable_snd))
  rw [lintegral_add_left M1, hbal, ← lintegral_add_left M2]
  refine lintegral_congr fun a => ?_
  have mA : Measurable fun w => metroAcc L a (fold2 a w) := hAf.comp (measurable_const.prodMk measurable_id)
  rw [← lintegral_add_left]
  · have : ∀ w, m a (fold2 a w) * psi a * q w +
        box.indicator 1 a * (Spec.posterior L a * (1 - metroAcc L a (fold2 a w))) * psi a * q w =
        box.indicator 1 a * (Spec.posterior L a * psi a) * q w := by
      intro w
      simp only [m]
      have h1 : metroAcc L a (fold2 a w) + (1 - metroAcc L a (fold2 a w)) = 1 :=
        add_tsub_cancel_of_le (metroAcc_le L a _)
      calc _ = box.indicator 1 a * (Spec.posterior L a * psi a) * q w *
            (metroAcc L a (fold2 a w) + (1 - metroAcc L a (fold2 a w))) := by ring
        _ = _ := by rw [h1, mul_one]
    simp only [this]
    rw [lintegral_const_mul _ hq, hq1, mul_one]
  · simp only [m]; fun_prop

theorem inBox_pair (b : ℝ × ℝ) : Spec.InBox ![b.1, b.2] ↔ b ∈ box := by
  unfold Spec.InBox box
  simp [Fin.forall_fin_two, Set.mem_prod]

/-- **C92.** Start the parameters from their posterior (density `exp(log Z⁻¹ - V)` on the box `[0,2)²`, any normalising-constant estimate
that is a function of the parameters), draw a step of the walk with any density that does not depend on the signs of its
coordinates and a uniform number, and do one update: the parameters still have that law. -/
theorem C92_stationary (ph : Phys ℝ ι T) (z : (Fin 2 → ℝ) → ℝ × ℝ) (x : ι → ℝ)
    (hL : Measurable fun a : ℝ × ℝ => (z ![a.1, a.2 * ph.bmax]).1 - ph.pot ![a.1, a.2 * ph.bmax] x)
    (q : ℝ × ℝ → ℝ≥0∞) (hq : Measurable q) (hq1 : ∫⁻ w, q w = 1) (h0 : ∀ w, q (-w.1, w.2) = q w)
    (h1 : ∀ w, q (w.1, -w.2) = q w) (psi : (Fin 2 → ℝ) → ℝ≥0∞) (hpsi : Measurable fun a : ℝ × ℝ => psi ![a.1, a.2])
    (aux : ℝ × ℝ → Aux ℝ ι) (haux : ∀ a, (aux a).V = ph.pot ![a.1, a.2 * ph.bmax] x ∧
      (aux a).logZ = (z ![a.1, a.2 * ph.bmax]).1) :
    let posterior := fun a : ℝ × ℝ =>
      ENNReal.ofReal (Real.exp ((z ![a.1, a.2 * ph.bmax]).1 - ph.pot ![a.1, a.2 * ph.bmax] x))
    ∫⁻ a in Ico 0 2 ×ˢ Ico 0 2, posterior a * ∫⁻ w, q w * ∫⁻ u in Ioo (0 : ℝ) 1,
        psi (thetaStep ph ![w.1, w.2] z (Real.log u) x (![a.1, a.2], aux a)).1.1 =
      ∫⁻ a in Ico 0 2 ×ˢ Ico 0 2, posterior a * psi ![a.1, a.2] := by
  intro posterior
  refine Eq.trans ?_ (metro_stationary _ hL q hq hq1 h0 h1 (fun a => psi ![a.1, a.2]) hpsi)
  refine lintegral_congr fun a => ?_
  congr 1
  refine lintegral_congr fun w => ?_
  congr 1
  refine lintegral_congr fun u => ?_
  congr 1
  have hprop : thetaProposal ![a.1, a.2] ![w.1, w.2] = ![(fold2 a w).1, (fold2 a w).2] := by
    funext i
    fin_cases i <;> simp [thetaProposal, fold2]
  have hacc := C92_accept_iff ph ![w.1, w.2] z (Real.log u) x ![a.1, a.2] (aux a)
    (by simpa [Spec.scaled] using (haux a).1) (by simpa [Spec.scaled] using (haux a).2)
  simp only [hprop, inBox_pair, Spec.scaled, Matrix.cons_val_zero, Matrix.cons_val_one] at hacc
  unfold metroStep
  split
  · next h => exact (hacc.1 h).1
  · next h => exact (hacc.2 h).1

/-- **C92.** The same for the update given a table, whose log likelihood is part of the posterior. -/
theorem C92_stationary_given_table (ph : Phys ℝ ι T) (z : (Fin 2 → ℝ) → ℝ × ℝ) (x : ι → ℝ) (tab : T)
    (hL : Measurable fun a : ℝ × ℝ => (z ![a.1, a.2 * ph.bmax]).1 - ph.pot ![a.1, a.2 * ph.bmax] x -
      ph.nlt ![a.1, a.2 * ph.bmax] x tab)
    (q : ℝ × ℝ → ℝ≥0∞) (hq : Measurable q) (hq1 : ∫⁻ w, q w = 1) (h0 : ∀ w, q (-w.1, w.2) = q w)
    (h1 : ∀ w, q (w.1, -w.2) = q w) (psi : (Fin 2 → ℝ) → ℝ≥0∞) (hpsi : Measurable fun a : ℝ × ℝ => psi ![a.1, a.2])
    (aux : ℝ × ℝ → Aux ℝ ι) (haux : ∀ a, (aux a).V = ph.pot ![a.1, a.2 * ph.bmax] x ∧
      (aux a).logZ = (z ![a.1, a.2 * ph.bmax]).1) :
    let posterior := fun a : ℝ × ℝ =>
      ENNReal.ofReal (Real.exp ((z ![a.1, a.2 * ph.bmax]).1 - ph.pot ![a.1, a.2 * ph.bmax] x -
        ph.nlt ![a.1, a.2 * ph.bmax] x tab))
    ∫⁻ a in Ico 0 2 ×ˢ Ico 0 2, posterior a * ∫⁻ w, q w * ∫⁻ u in Ioo (0 : ℝ) 1,
        psi (thetaStepT ph ![w.1, w.2] z (Real.log u) x tab
          (![a.1, a.2], aux a, ph.nlt ![a.1, a.2 * ph.bmax] x tab)).1.1 =
      ∫⁻ a in Ico 0 2 ×ˢ Ico 0 2, posterior a * psi ![a.1, a.2] := by
  intro posterior
  refine Eq.trans ?_ (metro_stationary _ hL q hq hq1 h0 h1 (fun a => psi ![a.1, a.2]) hpsi)
  refine lintegral_congr fun a => ?_
  congr 1
  refine lintegral_congr fun w => ?_
  congr 1
  refine lintegral_congr fun u => ?_
  congr 1
  have hprop : thetaProposal ![a.1, a.2] ![w.1, w.2] = ![(fold2 a w).1, (fold2 a w).2] := by
    funext i
    fin_cases i <;> simp [thetaProposal, fold2]
  have hacc := C92_accept_given_table_iff ph ![w.1, w.2] z (Real.log u) x tab ![a.1, a.2] (aux a)
    (ph.nlt ![a.1, a.2 * ph.bmax] x tab)
    (by simpa [Spec.scaled] using (haux a).1) (by simpa [Spec.scaled] using (haux a).2) (by simp [Spec.scaled])
  simp only [hprop, inBox_pair, Spec.scaled, Matrix.cons_val_zero, Matrix.cons_val_one] at hacc
  unfold metroStep
  split
  · next h => exact (hacc.1 h).1
  · next h => exact (hacc.2 h).1

/-- A walk meeting the hypotheses: uniform steps in a square. -/
theorem exists_signFree : ∃ q : ℝ × ℝ → ℝ≥0∞, Measurable q ∧ ∫⁻ w, q w = 1 ∧ (∀ w, q (-w.1, w.2) = q w) ∧ ∀ w, q (w.1, -w.2) = q w := by
  have hS : MeasurableSet (Icc (-1 / 2 : ℝ) (1 / 2) ×ˢ Icc (-1 / 2 : ℝ) (1 / 2)) := measurableSet_Icc.prod measurableSet_Icc
  refine ⟨(Icc (-1 / 2 : ℝ) (1 / 2) ×ˢ Icc (-1 / 2 : ℝ) (1 / 2)).indicator 1, measurable_one.indicator hS, ?_, ?_, ?_⟩
  · rw [lintegral_indicator_one hS, Measure.volume_eq_prod, Measure.prod_prod, Real.volume_Icc]
    norm_num
  · intro w
    have : ((-w.1, w.2) ∈ Icc (-1 / 2 : ℝ) (1 / 2) ×ˢ Icc (-1 / 2 : ℝ) (1 / 2)) ↔
        (w ∈ Icc (-1 / 2 : ℝ) (1 / 2) ×ˢ Icc (-1 / 2 : ℝ) (1 / 2)) := by
      simp only [mem_prod, mem_Icc]
      constructor <;> rintro ⟨⟨a, b⟩, c⟩ <;> exact ⟨⟨by linarith, by linarith⟩, c⟩
    simp only [indicator, this, Pi.one_apply]
  · intro w
    have : ((w.1, -w.2) ∈ Icc (-1 / 2 : ℝ) (1 / 2) ×ˢ Icc (-1 / 2 : ℝ) (1 / 2)) ↔
        (w ∈ Icc (-1 / 2 : ℝ) (1 / 2) ×ˢ Icc (-1 / 2 : ℝ) (1 / 2)) := by
      simp only [mem_prod, mem_Icc]
      constructor <;> rintro ⟨c, ⟨a, b⟩⟩ <;> exact ⟨c, ⟨by linarith, by linarith⟩⟩
    simp only [indicator, this, Pi.one_apply]

/-- **C92 is not true of correlated walks** (a `covariance` with entries off the diagonal).  When the two coordinates of the
walk are perfectly correlated, i.e. every step is `(t, t)`, the proposal is not symmetric: a step leads from `a` to `b`, both
inside the box, and no step leads back, so the acceptance rule (which has no correction for the proposal) is not that of a
Metropolis-Hastings chain. -/
theorem C92_correlated_false : ∃ a b : Fin 2 → ℚ, Spec.InBox a ∧ Spec.InBox b ∧
    (∃ t : ℚ, thetaProposal a ![t, t] = b) ∧ ∀ t : ℚ, thetaProposal b ![t, t] ≠ a := by
  refine ⟨![1 / 2, 3 / 2], ![3 / 2, 3 / 2], ?_, ?_, ⟨1, by decide +kernel⟩, ?_⟩
  · intro i; fin_cases i <;> norm_num
  · intro i; fin_cases i <;> norm_num
  · intro t h
    have h0 := congrFun h 0
    have h1 := congrFun h 1
    simp only [thetaProposal, Matrix.cons_val_zero, Matrix.cons_val_one] at h0 h1
    rw [h0] at h1
    norm_num at h1

end GeNSIT
