import Verif.Sampler.Measure
import Verif.Sampler.Stationary
import Verif.Sim.Model
import Mathlib.MeasureTheory.Integral.Pi
import Mathlib.Probability.Distributions.Gaussian.Real
import Mathlib.Probability.Distributions.Gamma
import Mathlib.MeasureTheory.Function.JacobianOneDim

/-!
# C152: the annealed importance sampling estimate is unbiased

`annealed_importance_sampling_log_z` (`gensit/learning_models/HarrisWilsonModel_MCMC.py:313-426`): the mean of the estimate over all random draws.
-/

set_option linter.unusedSectionVars false
set_option linter.unusedVariables false

namespace GeNSIT

open MeasureTheory ENNReal ProbabilityTheory

variable {ι : Type} [Fintype ι]

/-! ## Products of densities -/

theorem pi_withDensity (f : ι → ℝ → ℝ) (h0 : ∀ i x, 0 ≤ f i x) (hm : ∀ i, Measurable (f i)) (hi : ∀ i, Integrable (f i)) :
    Measure.pi (fun i => (volume : Measure ℝ).withDensity fun x => ENNReal.ofReal (f i x)) =
      (volume : Measure (ι → ℝ)).withDensity fun x => ENNReal.ofReal (∏ i, f i (x i)) := by
  have hfin : ∀ i, IsFiniteMeasure ((volume : Measure ℝ).withDensity fun x => ENNReal.ofReal (f i x)) := fun i =>
    isFiniteMeasure_withDensity_ofReal (hi i).2
  refine Measure.pi_eq fun s hs => ?_
  have hms : MeasurableSet (Set.pi Set.univ s) := MeasurableSet.univ_pi hs
  rw [withDensity_apply _ hms]
  have e1 : ∀ i, (volume.withDensity fun x => ENNReal.ofReal (f i x)) (s i) = ENNReal.ofReal (∫ x, (s i).indicator (f i) x) := by
    intro i
    rw [withDensity_apply _ (hs i), ← ofReal_integral_eq_lintegral_ofReal, integral_indicator (hs i)]
    · exact (hi i).restrict
    · exact Filter.Eventually.of_forall fun x => h0 i x
  simp only [e1]
  rw [← ENNReal.ofReal_prod_of_nonneg (fun i _ => integral_nonneg fun x => Set.indicator_nonneg (fun y _ => h0 i y) x)]
  rw [← integral_fintype_prod_volume_eq_prod (f := fun i x => (s i).indicator (f i) x)]
  rw [ofReal_integral_eq_lintegral_ofReal]
  · rw [← lintegral_indicator hms]
    refine lintegral_congr fun x => ?_
    by_cases hx : x ∈ Set.pi Set.univ s
    · rw [Set.indicator_of_mem hx]
      congr 1
      refine Finset.prod_congr rfl fun i _ => ?_
      rw [Set.indicator_of_mem (hx i (Set.mem_univ i))]
    · rw [Set.indicator_of_notMem hx]
      have : ∃ i, x i ∉ s i := by
        by_contra hc
        push Not at hc
        exact hx fun i _ => hc i
      obtain ⟨i, hxi⟩ := this
      rw [Finset.prod_eq_zero (Finset.mem_univ i) (Set.indicator_of_notMem hxi _), ENNReal.ofReal_zero]
  · exact Integrable.fintype_prod fun i => (hi i).indicator (hs i)
  · exact Filter.Eventually.of_forall fun x => Finset.prod_nonneg fun i _ => Set.indicator_nonneg (fun y _ => h0 i y) _

/-- The law of `torch.randn(Ndestinations)`. -/
noncomputable def momentumLaw (ι : Type) [Fintype ι] : Measure (ι → ℝ) := Measure.pi fun _ => gaussianReal 0 1

instance : IsProbabilityMeasure (momentumLaw ι) := by unfold momentumLaw; infer_instance

noncomputable def momC (ι : Type) [Fintype ι] : ℝ := ∏ _i : ι, (Real.sqrt (2 * Real.pi * 1))⁻¹

theorem momentumLaw_eq : momentumLaw ι = (volume : Measure (ι → ℝ)).withDensity fun p => ENNReal.ofReal (momC ι * Real.exp (-Spec.kinetic p)) := by
  unfold momentumLaw
  simp only [gaussianReal, one_ne_zero, if_false]
  unfold gaussianPDF
  rw [pi_withDensity (fun _ => gaussianPDFReal 0 1) (fun _ x => gaussianPDFReal_nonneg 0 1 x) (fun _ => measurable_gaussianPDFReal 0 1)
    (fun _ => integrable_gaussianPDFReal 0 1)]
  congr 1
  funext p
  congr 1
  unfold gaussianPDFReal momC Spec.kinetic
  rw [Finset.prod_mul_distrib, ← Real.exp_sum]
  congr 2
  rw [← Finset.sum_div, Finset.sum_neg_distrib]
  simp only [NNReal.coe_one, mul_one, sub_zero, pow_two]
  rw [neg_div]


/-! ## The Hamiltonian step leaves the tempered law invariant -/

theorem momC_pos : 0 < momC ι := by
  unfold momC
  refine Finset.prod_pos fun _ _ => ?_
  positivity

/-- One uniform draw: accept or stay. -/
theorem lintegral_hmc_accept (d : ℝ) (A B : ℝ≥0∞) :
    ∫⁻ u in Set.Ioo (0 : ℝ) 1, (if Real.log u < d then A else B) =
      min 1 (ENNReal.ofReal (Real.exp d)) * A + (1 - min 1 (ENNReal.ofReal (Real.exp d))) * B := by
  have hset : Set.Ioo (0 : ℝ) 1 = Set.Ioo 0 (min 1 (Real.exp d)) ∪ (Set.Ioo (0 : ℝ) 1 \ Set.Ioo 0 (min 1 (Real.exp d))) := by
    rw [Set.union_sdiff_cancel]
    exact Set.Ioo_subset_Ioo le_rfl (min_le_left _ _)
  rw [hset, lintegral_union (measurableSet_Ioo.diff measurableSet_Ioo) Set.disjoint_sdiff_right]
  congr 1
  · rw [setLIntegral_congr_fun (g := fun _ => A) measurableSet_Ioo]
    · rw [setLIntegral_const, volume_log_lt, mul_comm]
    · intro u hu
      rw [← log_lt_set] at hu
      simp [hu.2]
  · rw [setLIntegral_congr_fun (g := fun _ => B) (measurableSet_Ioo.diff measurableSet_Ioo)]
    · rw [setLIntegral_const, measure_sdiff (Set.Ioo_subset_Ioo le_rfl (min_le_left _ _)) measurableSet_Ioo.nullMeasurableSet
          (by rw [volume_log_lt]; exact ne_top_of_le_ne_top ENNReal.one_ne_top (min_le_left _ _)), volume_log_lt, mul_comm]
      simp
    · intro u hu
      have : ¬ Real.log u < d := by
        intro h
        refine hu.2 ?_
        rw [← log_lt_set]
        exact ⟨hu.1, h⟩
      simp [this]

/-- Where the particle is after the accept/reject test. -/
noncomputable def hmcMove (V : (ι → ℝ) → ℝ) (eps : ℝ) (g : (ι → ℝ) → (ι → ℝ)) (n : ℕ) (x p : ι → ℝ) (u : ℝ) : ι → ℝ :=
  if Real.log u < Spec.energy V x p - Spec.energy V (hmcProposal eps g n (x, p)).1 (hmcProposal eps g n (x, p)).2 then
    (hmcProposal eps g n (x, p)).1 else x

theorem measurable_hmcProposal (eps : ℝ) (g : (ι → ℝ) → (ι → ℝ)) (hg : Measurable g) (n : ℕ) : Measurable (hmcProposal eps g n) :=
  (measurePreserving_flipMom.comp (C58_volume_preserving eps g hg n)).measurable

theorem measurable_energy (V : (ι → ℝ) → ℝ) (hV : Measurable V) : Measurable fun s : (ι → ℝ) × (ι → ℝ) => Spec.energy V s.1 s.2 := by
  unfold Spec.energy Spec.kinetic
  fun_prop

theorem measurable_hmcMove (V : (ι → ℝ) → ℝ) (hV : Measurable V) (eps : ℝ) (g : (ι → ℝ) → (ι → ℝ)) (hg : Measurable g) (n : ℕ) :
    Measurable fun t : ((ι → ℝ) × (ι → ℝ)) × ℝ => hmcMove V eps g n t.1.1 t.1.2 t.2 := by
  have hp := measurable_hmcProposal eps g hg n
  have he := measurable_energy V hV
  unfold hmcMove
  refine Measurable.ite ?_ ?_ ?_
  · refine measurableSet_lt (Real.measurable_log.comp measurable_snd) ?_
    exact (he.comp measurable_fst).sub ((he.comp hp).comp measurable_fst)
  · exact (measurable_fst.comp hp).comp measurable_fst
  · exact measurable_fst.comp measurable_fst

/-- The mean of a function of the position after one step. -/
noncomputable def hmcMean (V : (ι → ℝ) → ℝ) (eps : ℝ) (g : (ι → ℝ) → (ι → ℝ)) (n : ℕ) (h : (ι → ℝ) → ℝ≥0∞) (x : ι → ℝ) : ℝ≥0∞ :=
  ∫⁻ p, ∫⁻ u in Set.Ioo (0 : ℝ) 1, h (hmcMove V eps g n x p u) ∂volume ∂(momentumLaw ι)

theorem measurable_hmcMean (V : (ι → ℝ) → ℝ) (hV : Measurable V) (eps : ℝ) (g : (ι → ℝ) → (ι → ℝ)) (hg : Measurable g) (n : ℕ)
    (h : (ι → ℝ) → ℝ≥0∞) (hh : Measurable h) : Measurable (hmcMean V eps g n h) := by
  unfold hmcMean
  have h1 : Measurable fun t : ((ι → ℝ) × (ι → ℝ)) × ℝ => h (hmcMove V eps g n t.1.1 t.1.2 t.2) :=
    hh.comp (measurable_hmcMove V hV eps g hg n)
  have h2 : Measurable fun s : (ι → ℝ) × (ι → ℝ) => ∫⁻ u in Set.Ioo (0 : ℝ) 1, h (hmcMove V eps g n s.1 s.2 u) :=
    h1.lintegral_prod_right'
  exact h2.lintegral_prod_right'

theorem lintegral_hmcMove (V : (ι → ℝ) → ℝ) (eps : ℝ) (g : (ι → ℝ) → (ι → ℝ)) (n : ℕ) (h : (ι → ℝ) → ℝ≥0∞) (x p : ι → ℝ) :
    ∫⁻ u in Set.Ioo (0 : ℝ) 1, h (hmcMove V eps g n x p u) =
      acceptProb V (x, p) (hmcProposal eps g n (x, p)) * h (hmcProposal eps g n (x, p)).1 +
        (1 - acceptProb V (x, p) (hmcProposal eps g n (x, p))) * h x := by
  unfold acceptProb
  rw [← lintegral_hmc_accept]
  refine lintegral_congr fun u => ?_
  unfold hmcMove
  split <;> rfl

theorem hmcMean_invariant (V : (ι → ℝ) → ℝ) (hV : Measurable V) (eps : ℝ) (g : (ι → ℝ) → (ι → ℝ)) (hg : Measurable g) (n : ℕ)
    (h : (ι → ℝ) → ℝ≥0∞) (hh : Measurable h) :
    ∫⁻ x, ENNReal.ofReal (Real.exp (-V x)) * hmcMean V eps g n h x = ∫⁻ x, ENNReal.ofReal (Real.exp (-V x)) * h x := by
  have hp := measurable_hmcProposal eps g hg n
  have hgib : Measurable (gibbsDensity V) := by
    unfold gibbsDensity; exact ENNReal.measurable_ofReal.comp (Real.measurable_exp.comp (measurable_energy V hV).neg)
  have hacc : Measurable fun s : (ι → ℝ) × (ι → ℝ) => acceptProb V s (hmcProposal eps g n s) := by
    unfold acceptProb
    refine measurable_const.min (ENNReal.measurable_ofReal.comp (Real.measurable_exp.comp ?_))
    exact (measurable_energy V hV).sub ((measurable_energy V hV).comp hp)
  have hK : Measurable fun p : ι → ℝ => ENNReal.ofReal (momC ι * Real.exp (-Spec.kinetic p)) := by
    unfold Spec.kinetic; fun_prop
  have hsplit : ∀ x p : ι → ℝ, ENNReal.ofReal (Real.exp (-V x)) * ENNReal.ofReal (momC ι * Real.exp (-Spec.kinetic p)) =
      ENNReal.ofReal (momC ι) * gibbsDensity V (x, p) := by
    intro x p
    unfold gibbsDensity Spec.energy
    rw [← ENNReal.ofReal_mul (Real.exp_nonneg _), ← ENNReal.ofReal_mul momC_pos.le]
    congr 1
    rw [neg_add, Real.exp_add]
    ring
  -- integrals against the joint law of position and momentum
  have joint : ∀ F : (ι → ℝ) × (ι → ℝ) → ℝ≥0∞, Measurable F →
      ∫⁻ x, ENNReal.ofReal (Real.exp (-V x)) * ∫⁻ p, F (x, p) ∂(momentumLaw ι) =
        ENNReal.ofReal (momC ι) * ∫⁻ s, gibbsDensity V s * F s := by
    intro F hF
    have hGF : Measurable fun s => gibbsDensity V s * F s := hgib.mul hF
    rw [momentumLaw_eq, Measure.volume_eq_prod, lintegral_prod _ hGF.aemeasurable, ← lintegral_const_mul]
    · refine lintegral_congr fun x => ?_
      have hFx : Measurable fun p => F (x, p) := hF.comp (measurable_const.prodMk measurable_id)
      rw [lintegral_withDensity_eq_lintegral_mul _ hK hFx,
        ← lintegral_const_mul, ← lintegral_const_mul]
      · refine lintegral_congr fun p => ?_
        rw [Pi.mul_apply, ← mul_assoc, hsplit, mul_assoc]
      · exact hGF.comp (measurable_const.prodMk measurable_id)
      · exact hK.mul hFx
    · exact hGF.lintegral_prod_right'
  have hA1 : ∀ s, acceptProb V s (hmcProposal eps g n s) ≤ 1 := fun s => min_le_left _ _
  have e1 : ∫⁻ x, ENNReal.ofReal (Real.exp (-V x)) * hmcMean V eps g n h x =
      ENNReal.ofReal (momC ι) * ∫⁻ s, gibbsDensity V s * h s.1 := by
    have := joint (fun s => acceptProb V s (hmcProposal eps g n s) * h (hmcProposal eps g n s).1 +
        (1 - acceptProb V s (hmcProposal eps g n s)) * h s.1)
        ((hacc.mul (hh.comp (measurable_fst.comp hp))).add ((measurable_const.sub hacc).mul (hh.comp measurable_fst)))
    unfold hmcMean
    simp only [lintegral_hmcMove]
    rw [this]
    congr 1
    have db := C58_detailed_balance V eps g n hg hV (fun _ => 1) (fun s => h s.1) measurable_const (hh.comp measurable_fst)
    simp only [one_mul, mul_one] at db
    have l1 : ∀ s, gibbsDensity V s * (acceptProb V s (hmcProposal eps g n s) * h (hmcProposal eps g n s).1 +
        (1 - acceptProb V s (hmcProposal eps g n s)) * h s.1) =
        h (hmcProposal eps g n s).1 * (gibbsDensity V s * acceptProb V s (hmcProposal eps g n s)) +
          gibbsDensity V s * ((1 - acceptProb V s (hmcProposal eps g n s)) * h s.1) := by
      intro s; ring
    simp only [l1]
    have m1 : Measurable fun s => h (hmcProposal eps g n s).1 * (gibbsDensity V s * acceptProb V s (hmcProposal eps g n s)) :=
      (hh.comp (measurable_fst.comp hp)).mul (hgib.mul hacc)
    have m2 : Measurable fun s : (ι → ℝ) × (ι → ℝ) => h s.1 * (gibbsDensity V s * acceptProb V s (hmcProposal eps g n s)) :=
      (hh.comp measurable_fst).mul (hgib.mul hacc)
    rw [lintegral_add_left m1, db, ← lintegral_add_left m2]
    refine lintegral_congr fun s => ?_
    have : acceptProb V s (hmcProposal eps g n s) + (1 - acceptProb V s (hmcProposal eps g n s)) = 1 :=
      add_tsub_cancel_of_le (hA1 s)
    calc _ = gibbsDensity V s * h s.1 * (acceptProb V s (hmcProposal eps g n s) + (1 - acceptProb V s (hmcProposal eps g n s))) := by ring
      _ = _ := by rw [this, mul_one]
  rw [e1, ← joint (fun s => h s.1) (hh.comp measurable_fst)]
  simp


/-! ## The annealing loop as a probabilistic program -/

/-- The potential of the law at one temperature (lines 386-387). -/
def Spec.tempered (V0 V1 : (ι → ℝ) → ℝ) (t : ℝ) (x : ι → ℝ) : ℝ := (1 - t) * V0 x + t * V1 x

/-- The mean of `F` of the particle after `k` further temperatures, the next one having index `it`: the momentum is `torch.randn`
(line 384) and the uniform `torch.rand` (line 411). -/
noncomputable def aisMean (V0 V1 : (ι → ℝ) → ℝ) (g0 g1 : (ι → ℝ) → (ι → ℝ)) (temp : ℕ → ℝ) (eps : ℝ) (n : ℕ)
    (F : Particle ℝ ι → ℝ≥0∞) : ℕ → ℕ → Particle ℝ ι → ℝ≥0∞
  | 0, _, s => F s
  | k + 1, it, s => ∫⁻ p, ∫⁻ u in Set.Ioo (0 : ℝ) 1,
      aisMean V0 V1 g0 g1 temp eps n F k (it + 1) (aisStep V0 V1 g0 g1 temp eps n it s ⟨p, Real.log u⟩) ∂volume ∂(momentumLaw ι)

theorem flipMom_energy (V : (ι → ℝ) → ℝ) (s : (ι → ℝ) × (ι → ℝ)) : Spec.energy V (flipMom s).1 (flipMom s).2 = Spec.energy V s.1 s.2 := by
  unfold Spec.energy Spec.kinetic flipMom
  simp

/-- One annealing step of a particle whose cached values are right: the weight is multiplied, and the position moves as in `hmcMove`. -/
theorem aisStep_init (V0 V1 : (ι → ℝ) → ℝ) (g0 g1 : (ι → ℝ) → (ι → ℝ)) (temp : ℕ → ℝ) (eps : ℝ) (n it : ℕ) (l : ℝ)
    (x p : ι → ℝ) (u : ℝ) :
    aisStep V0 V1 g0 g1 temp eps n it (aisInit V0 V1 g0 g1 l x) ⟨p, Real.log u⟩ =
      aisInit V0 V1 g0 g1 (l + (temp it - temp (it - 1)) * (V0 x - V1 x))
        (hmcMove (Spec.tempered V0 V1 (temp it)) eps (fun y => (1 - temp it) • g0 y + temp it • g1 y) (n + 1) x p u) := by
  unfold hmcMove hmcProposal
  rw [flipMom_energy]
  unfold aisStep aisInit leapfrog flipMom
  simp only
  have hE : ∀ y q : ι → ℝ, Spec.energy (Spec.tempered V0 V1 (temp it)) y q =
      1 / 2 * dot q q + ((1 - temp it) * V0 y + temp it * V1 y) := by
    intro y q
    unfold Spec.energy Spec.kinetic Spec.tempered dot
    ring
  simp only [hE]
  split <;> rfl

/-- The mean of the weighted function of the position, as a function of the position, the starting weight factored out. -/
noncomputable def aisFactor (V0 V1 : (ι → ℝ) → ℝ) (g0 g1 : (ι → ℝ) → (ι → ℝ)) (temp : ℕ → ℝ) (eps : ℝ) (n : ℕ)
    (f : (ι → ℝ) → ℝ≥0∞) : ℕ → ℕ → (ι → ℝ) → ℝ≥0∞
  | 0, _, x => f x
  | k + 1, it, x => ENNReal.ofReal (Real.exp ((temp it - temp (it - 1)) * (V0 x - V1 x))) *
      hmcMean (Spec.tempered V0 V1 (temp it)) eps (fun y => (1 - temp it) • g0 y + temp it • g1 y) (n + 1)
        (aisFactor V0 V1 g0 g1 temp eps n f k (it + 1)) x

section
variable (V0 V1 : (ι → ℝ) → ℝ) (g0 g1 : (ι → ℝ) → (ι → ℝ)) (temp : ℕ → ℝ) (eps : ℝ) (n : ℕ)
  (h0 : Measurable V0) (h1 : Measurable V1) (k0 : Measurable g0) (k1 : Measurable g1)
include h0 h1 k0 k1

theorem measurable_tempered (t : ℝ) : Measurable (Spec.tempered V0 V1 t) := by
  unfold Spec.tempered
  fun_prop

theorem measurable_tgrad (t : ℝ) : Measurable fun y => (1 - t) • g0 y + t • g1 y := by
  fun_prop

theorem measurable_aisFactor (f : (ι → ℝ) → ℝ≥0∞) (hf : Measurable f) (k : ℕ) : ∀ it,
    Measurable (aisFactor V0 V1 g0 g1 temp eps n f k it) := by
  induction k with
  | zero => intro it; exact hf
  | succ k ih =>
    intro it
    have hm := measurable_hmcMean (Spec.tempered V0 V1 (temp it)) (measurable_tempered V0 V1 g0 g1 h0 h1 k0 k1 _) eps
      (fun y => (1 - temp it) • g0 y + temp it • g1 y) (measurable_tgrad V0 V1 g0 g1 h0 h1 k0 k1 _) (n + 1) _ (ih (it + 1))
    have he : Measurable fun x => ENNReal.ofReal (Real.exp ((temp it - temp (it - 1)) * (V0 x - V1 x))) := by fun_prop
    exact he.mul hm

theorem aisMean_eq (f : (ι → ℝ) → ℝ≥0∞) (hf : Measurable f) (k : ℕ) : ∀ (it : ℕ) (l : ℝ) (x : ι → ℝ),
    aisMean V0 V1 g0 g1 temp eps n (fun s => ENNReal.ofReal (Real.exp s.logW) * f s.x) k it (aisInit V0 V1 g0 g1 l x) =
      ENNReal.ofReal (Real.exp l) * aisFactor V0 V1 g0 g1 temp eps n f k it x := by
  induction k with
  | zero => intro it l x; rfl
  | succ k ih =>
    intro it l x
    have hmeas := measurable_aisFactor V0 V1 g0 g1 temp eps n h0 h1 k0 k1 f hf k (it + 1)
    have hmv0 := measurable_hmcMove (Spec.tempered V0 V1 (temp it)) (measurable_tempered V0 V1 g0 g1 h0 h1 k0 k1 (temp it)) eps
      (fun y => (1 - temp it) • g0 y + temp it • g1 y) (measurable_tgrad V0 V1 g0 g1 h0 h1 k0 k1 (temp it)) (n + 1)
    simp only [aisMean, aisStep_init, ih]
    simp only [aisFactor, hmcMean]
    generalize aisFactor V0 V1 g0 g1 temp eps n f k (it + 1) = G at hmeas ⊢
    generalize hmcMove (Spec.tempered V0 V1 (temp it)) eps (fun y => (1 - temp it) • g0 y + temp it • g1 y) (n + 1) = M at hmv0 ⊢
    have hmv : Measurable fun t : ((ι → ℝ) × (ι → ℝ)) × ℝ => G (M t.1.1 t.1.2 t.2) := hmeas.comp hmv0
    have hin : Measurable fun p : ι → ℝ => ∫⁻ u in Set.Ioo (0 : ℝ) 1, G (M x p u) := by
      have := Measurable.lintegral_prod_right' (ν := (volume : Measure ℝ).restrict (Set.Ioo 0 1)) hmv
      exact this.comp (measurable_const.prodMk measurable_id)
    rw [← mul_assoc, ← ENNReal.ofReal_mul (Real.exp_nonneg _), ← Real.exp_add, ← lintegral_const_mul _ hin]
    refine lintegral_congr fun p => ?_
    rw [lintegral_const_mul]
    exact hmv.comp ((measurable_const.prodMk measurable_const).prodMk measurable_id)

theorem aisFactor_invariant (f : (ι → ℝ) → ℝ≥0∞) (hf : Measurable f) (k : ℕ) : ∀ it : ℕ,
    ∫⁻ x, ENNReal.ofReal (Real.exp (-Spec.tempered V0 V1 (temp it) x)) * aisFactor V0 V1 g0 g1 temp eps n f k (it + 1) x =
      ∫⁻ x, ENNReal.ofReal (Real.exp (-Spec.tempered V0 V1 (temp (it + k)) x)) * f x := by
  induction k with
  | zero => intro it; rfl
  | succ k ih =>
    intro it
    have hmeas := measurable_aisFactor V0 V1 g0 g1 temp eps n h0 h1 k0 k1 f hf k (it + 1 + 1)
    rw [show it + (k + 1) = it + 1 + k by omega, ← ih (it + 1)]
    rw [← hmcMean_invariant (Spec.tempered V0 V1 (temp (it + 1))) (measurable_tempered V0 V1 g0 g1 h0 h1 k0 k1 _) eps
      (fun y => (1 - temp (it + 1)) • g0 y + temp (it + 1) • g1 y) (measurable_tgrad V0 V1 g0 g1 h0 h1 k0 k1 _) (n + 1) _ hmeas]
    refine lintegral_congr fun x => ?_
    simp only [aisFactor, Nat.add_sub_cancel]
    rw [← mul_assoc, ← ENNReal.ofReal_mul (Real.exp_nonneg _), ← Real.exp_add]
    congr 3
    unfold Spec.tempered
    ring

end


/-! ## The estimate -/

/-- The normalising constant of `exp(-V)`. -/
noncomputable def Spec.normaliser (V : (ι → ℝ) → ℝ) : ℝ≥0∞ := ∫⁻ x, ENNReal.ofReal (Real.exp (-V x))

/-- The probability law with density proportional to `exp(-V)`. -/
noncomputable def Spec.gibbsLaw (V : (ι → ℝ) → ℝ) : Measure (ι → ℝ) :=
  (volume : Measure (ι → ℝ)).withDensity fun x => ENNReal.ofReal (Real.exp (-V x)) / Spec.normaliser V

/-- `torch.logsumexp(log_weights.ravel(), dim = 0)` (line 426). -/
noncomputable def lseWeights (ws : List ℝ) : ℝ := Real.log (ws.map Real.exp).sum

/-- The mean, over every random draw, of the exponential of what `annealed_importance_sampling_log_z` returns (lines 313-426), from
the `ais_samples = N` particles of which `k` are still to be run and the others ended with log weights `ws`.  `start` is the law of the
starting position, `m` the number of temperatures, `n + 1` the number of leapfrog steps.  The semaphore, the progress bar and the
acceptance counters are not modelled. -/
noncomputable def aisEst (start : Measure (ι → ℝ)) (V0 V1 : (ι → ℝ) → ℝ) (g0 g1 : (ι → ℝ) → (ι → ℝ)) (m : ℕ) (eps : ℝ) (n N : ℕ) :
    ℕ → List ℝ → ℝ≥0∞
  | 0, ws => ENNReal.ofReal (Real.exp (lseWeights ws))
  | k + 1, ws => ∫⁻ x, aisMean V0 V1 g0 g1 (linspace01 m) eps n
      (fun s => aisEst start V0 V1 g0 g1 m eps n N k (ws ++ [s.logW])) (m - 1) 1
      (aisInit V0 V1 g0 g1 (-Real.log N) x) ∂start

theorem aisMean_add_const (V0 V1 : (ι → ℝ) → ℝ) (g0 g1 : (ι → ℝ) → (ι → ℝ)) (temp : ℕ → ℝ) (eps : ℝ) (n : ℕ)
    (F : Particle ℝ ι → ℝ≥0∞) (c : ℝ≥0∞) (k : ℕ) : ∀ (it : ℕ) (s : Particle ℝ ι),
    aisMean V0 V1 g0 g1 temp eps n (fun s => F s + c) k it s = aisMean V0 V1 g0 g1 temp eps n F k it s + c := by
  induction k with
  | zero => intro it s; rfl
  | succ k ih =>
    intro it s
    simp only [aisMean, ih]
    have : ∀ p : ι → ℝ, ∫⁻ u in Set.Ioo (0 : ℝ) 1, (aisMean V0 V1 g0 g1 temp eps n F k (it + 1)
          (aisStep V0 V1 g0 g1 temp eps n it s ⟨p, Real.log u⟩) + c) =
        (∫⁻ u in Set.Ioo (0 : ℝ) 1, aisMean V0 V1 g0 g1 temp eps n F k (it + 1)
          (aisStep V0 V1 g0 g1 temp eps n it s ⟨p, Real.log u⟩)) + c := by
      intro p
      rw [lintegral_add_right _ measurable_const, setLIntegral_const]
      simp
    simp only [this]
    rw [lintegral_add_right _ measurable_const]
    simp

theorem exp_lseWeights (ws : List ℝ) (h : ws ≠ []) : Real.exp (lseWeights ws) = (ws.map Real.exp).sum := by
  unfold lseWeights
  refine Real.exp_log ?_
  refine List.sum_pos _ ?_ (by simpa using h)
  intro x hx
  obtain ⟨y, _, rfl⟩ := List.mem_map.1 hx
  exact Real.exp_pos y

theorem aisEst_eq (start : Measure (ι → ℝ)) [IsProbabilityMeasure start] (V0 V1 : (ι → ℝ) → ℝ) (g0 g1 : (ι → ℝ) → (ι → ℝ)) (m : ℕ)
    (eps : ℝ) (n N : ℕ) (k : ℕ) : ∀ ws : List ℝ, ws ≠ [] ∨ 0 < k →
    aisEst start V0 V1 g0 g1 m eps n N k ws = ENNReal.ofReal (ws.map Real.exp).sum +
      k * ∫⁻ x, aisMean V0 V1 g0 g1 (linspace01 m) eps n (fun s => ENNReal.ofReal (Real.exp s.logW)) (m - 1) 1
        (aisInit V0 V1 g0 g1 (-Real.log N) x) ∂start := by
  induction k with
  | zero =>
    intro ws h
    have hw : ws ≠ [] := by simpa using h
    simp only [aisEst, exp_lseWeights ws hw]
    simp
  | succ k ih =>
    intro ws _
    simp only [aisEst]
    have hsum : 0 ≤ (ws.map Real.exp).sum := by
      refine List.sum_nonneg ?_
      intro x hx
      obtain ⟨y, _, rfl⟩ := List.mem_map.1 hx
      exact (Real.exp_pos y).le
    have e : ∀ s : Particle ℝ ι, aisEst start V0 V1 g0 g1 m eps n N k (ws ++ [s.logW]) =
        ENNReal.ofReal (Real.exp s.logW) + (ENNReal.ofReal (ws.map Real.exp).sum +
          k * ∫⁻ x, aisMean V0 V1 g0 g1 (linspace01 m) eps n (fun s => ENNReal.ofReal (Real.exp s.logW)) (m - 1) 1
            (aisInit V0 V1 g0 g1 (-Real.log N) x) ∂start) := by
      intro s
      rw [ih _ (Or.inl (by simp))]
      simp only [List.map_append, List.map_cons, List.map_nil, List.sum_append, List.sum_cons, List.sum_nil, add_zero]
      rw [ENNReal.ofReal_add hsum (Real.exp_pos _).le]
      ring
    simp only [e, aisMean_add_const]
    rw [lintegral_add_right _ measurable_const]
    simp only [lintegral_const, measure_univ, mul_one]
    push_cast
    ring

/-- **C152.** Each step of the annealer (draw a momentum, run the integrator of the tempered potential, accept or reject, with the cached
potentials and gradients) leaves the law of its temperature invariant, for every step size, number of steps and gradient. -/
theorem C152_step_invariant (V0 V1 : (ι → ℝ) → ℝ) (g0 g1 : (ι → ℝ) → (ι → ℝ)) (temp : ℕ → ℝ) (eps : ℝ) (n it : ℕ)
    (h0 : Measurable V0) (h1 : Measurable V1) (k0 : Measurable g0) (k1 : Measurable g1) (l : ℝ)
    (f : (ι → ℝ) → ℝ≥0∞) (hf : Measurable f) :
    ∫⁻ x, ENNReal.ofReal (Real.exp (-Spec.tempered V0 V1 (temp it) x)) *
        (∫⁻ p, ∫⁻ u in Set.Ioo (0 : ℝ) 1,
          f (aisStep V0 V1 g0 g1 temp eps n it (aisInit V0 V1 g0 g1 l x) ⟨p, Real.log u⟩).x ∂volume ∂(momentumLaw ι)) =
      ∫⁻ x, ENNReal.ofReal (Real.exp (-Spec.tempered V0 V1 (temp it) x)) * f x := by
  rw [← hmcMean_invariant (Spec.tempered V0 V1 (temp it)) (measurable_tempered V0 V1 g0 g1 h0 h1 k0 k1 _) eps
      (fun y => (1 - temp it) • g0 y + temp it • g1 y) (measurable_tgrad V0 V1 g0 g1 h0 h1 k0 k1 _) (n + 1) f hf]
  simp only [aisStep_init]
  rfl

theorem linspace01_zero (m : ℕ) : (linspace01 m 0 : ℝ) = 0 := by simp [linspace01]

theorem linspace01_last (m : ℕ) (hm : 2 ≤ m) : (linspace01 m (m - 1) : ℝ) = 1 := by
  unfold linspace01
  rw [Nat.cast_sub (by omega), Nat.cast_one]
  refine div_self ?_
  have : (2 : ℝ) ≤ m := by exact_mod_cast hm
  intro h
  linarith

/-- **C152.** Started from the prior law `exp(-V0)/Z0`, the estimate is unbiased: its mean over all draws is the ratio of the normalising
constants of target and prior, for every target potential, any (even wrong) gradients, any step size and number of leapfrog steps, any
number of particles and of temperatures. -/
theorem C152_unbiased_partial (V0 V1 : (ι → ℝ) → ℝ) (g0 g1 : (ι → ℝ) → (ι → ℝ)) (m : ℕ) (hm : 2 ≤ m) (eps : ℝ) (n N : ℕ) (hN : 0 < N)
    (h0 : Measurable V0) (h1 : Measurable V1) (k0 : Measurable g0) (k1 : Measurable g1)
    (hZ : Spec.normaliser V0 ≠ 0) (hZ' : Spec.normaliser V0 ≠ ⊤) :
    aisEst (Spec.gibbsLaw V0) V0 V1 g0 g1 m eps n N N [] = Spec.normaliser V1 / Spec.normaliser V0 := by
  have hprob : IsProbabilityMeasure (Spec.gibbsLaw V0) := by
    constructor
    unfold Spec.gibbsLaw
    rw [withDensity_apply _ MeasurableSet.univ, setLIntegral_univ]
    simp only [div_eq_mul_inv]
    rw [lintegral_mul_const _ (by fun_prop)]
    exact ENNReal.mul_inv_cancel hZ hZ'
  rw [aisEst_eq _ _ _ _ _ _ _ _ _ _ _ (Or.inr hN)]
  have hmean : ∀ x, aisMean V0 V1 g0 g1 (linspace01 m) eps n (fun s => ENNReal.ofReal (Real.exp s.logW)) (m - 1) 1
        (aisInit V0 V1 g0 g1 (-Real.log N) x) =
      ENNReal.ofReal (Real.exp (-Real.log N)) * aisFactor V0 V1 g0 g1 (linspace01 m) eps n (fun _ => 1) (m - 1) 1 x := by
    intro x
    rw [← aisMean_eq V0 V1 g0 g1 _ eps n h0 h1 k0 k1 (fun _ => 1) measurable_const]
    simp only [mul_one]
  simp only [hmean]
  have hmf := measurable_aisFactor V0 V1 g0 g1 (linspace01 m) eps n h0 h1 k0 k1 (fun _ => 1) measurable_const (m - 1) 1
  have hinv := aisFactor_invariant V0 V1 g0 g1 (linspace01 m) eps n h0 h1 k0 k1 (fun _ => 1) measurable_const (m - 1) 0
  rw [lintegral_const_mul _ hmf]
  unfold Spec.gibbsLaw
  rw [lintegral_withDensity_eq_lintegral_mul _ (by fun_prop) hmf]
  have e : ∀ x, ((fun x => ENNReal.ofReal (Real.exp (-V0 x)) / Spec.normaliser V0) *
        aisFactor V0 V1 g0 g1 (linspace01 m) eps n (fun _ => 1) (m - 1) 1) x =
      ENNReal.ofReal (Real.exp (-Spec.tempered V0 V1 (linspace01 m 0) x)) *
        aisFactor V0 V1 g0 g1 (linspace01 m) eps n (fun _ => 1) (m - 1) (0 + 1) x * (Spec.normaliser V0)⁻¹ := by
    intro x
    rw [linspace01_zero]
    unfold Spec.tempered
    simp only [Pi.mul_apply, zero_add, sub_zero, one_mul, zero_mul, add_zero, div_eq_mul_inv]
    ring
  simp only [e]
  rw [lintegral_mul_const, hinv, zero_add, linspace01_last m hm]
  · unfold Spec.tempered
    simp only [List.map_nil, List.sum_nil, ENNReal.ofReal_zero, zero_add, sub_self, zero_mul, one_mul, mul_one]
    rw [← mul_assoc, Real.exp_neg, Real.exp_log (by exact_mod_cast hN), ENNReal.ofReal_inv_of_pos (by exact_mod_cast hN),
      ENNReal.ofReal_natCast, ENNReal.mul_inv_cancel (by exact_mod_cast hN.ne') (ENNReal.natCast_ne_top N), one_mul]
    rfl
  · refine Measurable.mul ?_ hmf
    have := measurable_tempered V0 V1 g0 g1 h0 h1 k0 k1 (linspace01 m 0)
    fun_prop


/-! ## The law the particles are started from -/

/-- The law of the logarithm of a Gamma variable (shape `a`, rate `r`). -/
noncomputable def logGamma (a r : ℝ) : Measure ℝ := (gammaMeasure a r).map Real.log

noncomputable def logGammaPDF (a r x : ℝ) : ℝ := r ^ a / Real.Gamma a * Real.exp (a * x - r * Real.exp x)

theorem logGamma_eq (a r : ℝ) (ha : 0 < a) (hr : 0 < r) :
    logGamma a r = (volume : Measure ℝ).withDensity fun x => ENNReal.ofReal (logGammaPDF a r x) := by
  refine Measure.ext fun s hs => ?_
  unfold logGamma
  rw [Measure.map_apply Real.measurable_log hs, withDensity_apply _ hs, gammaMeasure,
    withDensity_apply _ (Real.measurable_log hs)]
  have hpre : MeasurableSet (Real.log ⁻¹' s) := Real.measurable_log hs
  have e1 : ∫⁻ y in Real.log ⁻¹' s, gammaPDF a r y = ∫⁻ y in Real.exp '' s, gammaPDF a r y := by
    have himg : Real.exp '' s = (Real.log ⁻¹' s) ∩ Set.Ioi 0 := by
      ext y
      constructor
      · rintro ⟨x, hx, rfl⟩
        exact ⟨by simpa using hx, Real.exp_pos x⟩
      · rintro ⟨h1, h2⟩
        exact ⟨Real.log y, h1, Real.exp_log h2⟩
    rw [himg, ← lintegral_indicator hpre, ← lintegral_indicator (hpre.inter measurableSet_Ioi)]
    refine lintegral_congr_ae ?_
    have hz : ∀ᵐ v : ℝ, v ≠ 0 := by
      rw [ae_iff]; simp
    filter_upwards [hz] with v hv
    rcases lt_or_gt_of_ne hv with h | h
    · rw [Set.indicator_of_notMem (s := Real.log ⁻¹' s ∩ Set.Ioi 0) (by
        rintro ⟨_, h2⟩; exact absurd h2 (not_lt.mpr h.le))]
      refine Set.indicator_apply_eq_zero.2 fun _ => gammaPDF_of_neg h
    · by_cases hm : v ∈ Real.log ⁻¹' s
      · rw [Set.indicator_of_mem hm, Set.indicator_of_mem (s := Real.log ⁻¹' s ∩ Set.Ioi 0) ⟨hm, h⟩]
      · rw [Set.indicator_of_notMem hm, Set.indicator_of_notMem (s := Real.log ⁻¹' s ∩ Set.Ioi 0) fun hc => hm hc.1]
  rw [e1, lintegral_image_eq_lintegral_abs_deriv_mul hs (f' := Real.exp) (fun x _ => (Real.hasDerivAt_exp x).hasDerivWithinAt)
    Real.exp_injective.injOn]
  refine lintegral_congr fun x => ?_
  rw [gammaPDF_of_nonneg (Real.exp_pos x).le, ← ENNReal.ofReal_mul (abs_nonneg _), abs_of_pos (Real.exp_pos x)]
  congr 1
  unfold logGammaPDF
  rw [← Real.exp_mul, sub_eq_add_neg (a * x), Real.exp_add]
  have : Real.exp (a * x) = Real.exp (x * (a - 1)) * Real.exp x := by
    rw [← Real.exp_add]; congr 1; ring
  rw [this]
  ring

theorem logGammaPDF_nonneg (a r x : ℝ) (ha : 0 < a) (hr : 0 < r) : 0 ≤ logGammaPDF a r x := by
  unfold logGammaPDF
  have := Real.Gamma_pos_of_pos ha
  positivity

theorem measurable_logGammaPDF (a r : ℝ) : Measurable (logGammaPDF a r) := by
  unfold logGammaPDF
  fun_prop

theorem isProb_logGamma (a r : ℝ) (ha : 0 < a) (hr : 0 < r) : IsProbabilityMeasure (logGamma a r) := by
  have := isProbabilityMeasure_gammaMeasure ha hr
  unfold logGamma
  exact Measure.isProbabilityMeasure_map Real.measurable_log.aemeasurable

theorem integrable_logGammaPDF (a r : ℝ) (ha : 0 < a) (hr : 0 < r) : Integrable (logGammaPDF a r) := by
  refine ⟨(measurable_logGammaPDF a r).aestronglyMeasurable, ?_⟩
  have hp := isProb_logGamma a r ha hr
  have h1 : logGamma a r Set.univ = 1 := measure_univ
  rw [logGamma_eq a r ha hr, withDensity_apply _ MeasurableSet.univ, setLIntegral_univ] at h1
  rw [hasFiniteIntegral_iff_ofReal (Filter.Eventually.of_forall fun x => logGammaPDF_nonneg a r x ha hr), h1]
  exact ENNReal.one_lt_top

/-- The potential of a vector of independent log-Gamma variables. -/
noncomputable def Spec.gammaPot (a r : ℝ) (x : ι → ℝ) : ℝ := -(a * ∑ i, x i) + r * ∑ i, Real.exp (x i)

/-- `torch.log(Gamma(a, r).sample((Ndestinations,)))` (lines 362-363): independent coordinates; the second argument of
`torch.distributions.Gamma` is the rate. -/
noncomputable def startLaw (ι : Type) [Fintype ι] (a r : ℝ) : Measure (ι → ℝ) := Measure.pi fun _ => logGamma a r

theorem isProb_startLaw (a r : ℝ) (ha : 0 < a) (hr : 0 < r) : IsProbabilityMeasure (startLaw ι a r) := by
  have := isProb_logGamma a r ha hr
  unfold startLaw
  infer_instance

theorem startLaw_density (a r : ℝ) (ha : 0 < a) (hr : 0 < r) :
    startLaw ι a r = (volume : Measure (ι → ℝ)).withDensity fun x =>
      ENNReal.ofReal ((r ^ a / Real.Gamma a) ^ Fintype.card ι * Real.exp (-Spec.gammaPot a r x)) := by
  unfold startLaw
  rw [logGamma_eq a r ha hr, pi_withDensity (fun _ => logGammaPDF a r) (fun _ x => logGammaPDF_nonneg a r x ha hr)
    (fun _ => measurable_logGammaPDF a r) (fun _ => integrable_logGammaPDF a r ha hr)]
  congr 1
  funext x
  congr 1
  unfold logGammaPDF Spec.gammaPot
  rw [Finset.prod_mul_distrib, Finset.prod_const, Finset.card_univ, ← Real.exp_sum]
  congr 2
  rw [Finset.sum_sub_distrib, ← Finset.mul_sum, ← Finset.mul_sum]
  ring

theorem measurable_gammaPot (a r : ℝ) : Measurable (Spec.gammaPot a r : (ι → ℝ) → ℝ) := by
  unfold Spec.gammaPot
  fun_prop

theorem normaliser_gammaPot (a r : ℝ) (ha : 0 < a) (hr : 0 < r) :
    Spec.normaliser (Spec.gammaPot a r : (ι → ℝ) → ℝ) = ENNReal.ofReal ((Real.Gamma a / r ^ a) ^ Fintype.card ι) := by
  have hp := isProb_startLaw (ι := ι) a r ha hr
  have h1 : startLaw ι a r Set.univ = 1 := measure_univ
  have hG := Real.Gamma_pos_of_pos ha
  have hra : 0 < r ^ a := Real.rpow_pos_of_pos hr a
  have hc : 0 < (r ^ a / Real.Gamma a) ^ Fintype.card ι := by positivity
  have hm := measurable_gammaPot (ι := ι) a r
  rw [startLaw_density a r ha hr, withDensity_apply _ MeasurableSet.univ, setLIntegral_univ] at h1
  simp only [ENNReal.ofReal_mul hc.le] at h1
  rw [lintegral_const_mul _ (by fun_prop)] at h1
  have h2 : Spec.normaliser (Spec.gammaPot a r : (ι → ℝ) → ℝ) = (ENNReal.ofReal ((r ^ a / Real.Gamma a) ^ Fintype.card ι))⁻¹ := by
    refine ENNReal.eq_inv_of_mul_eq_one_left ?_
    rw [mul_comm]
    exact h1
  rw [h2, ← ENNReal.ofReal_inv_of_pos hc, ← inv_pow, inv_div]

theorem startLaw_eq_gibbs (a r : ℝ) (ha : 0 < a) (hr : 0 < r) : startLaw ι a r = Spec.gibbsLaw (Spec.gammaPot a r) := by
  have hG := Real.Gamma_pos_of_pos ha
  have hra : 0 < r ^ a := Real.rpow_pos_of_pos hr a
  have hc : 0 < (Real.Gamma a / r ^ a) ^ Fintype.card ι := by positivity
  rw [startLaw_density a r ha hr]
  unfold Spec.gibbsLaw
  congr 1
  funext x
  rw [normaliser_gammaPot a r ha hr, ← ENNReal.ofReal_div_of_pos hc]
  congr 1
  have : (r ^ a / Real.Gamma a) ^ Fintype.card ι = ((Real.Gamma a / r ^ a) ^ Fintype.card ι)⁻¹ := by
    rw [← inv_pow, inv_div]
  rw [this]
  ring


theorem lintegral_startLaw (a r b t : ℝ) (ha : 0 < a) (hr : 0 < r) (hab : 0 < a + b) (hrt : 0 < r + t) :
    ∫⁻ x, ENNReal.ofReal (Real.exp (-Spec.gammaPot b t x)) ∂(startLaw ι a r) =
      ENNReal.ofReal ((r ^ a / Real.Gamma a * (Real.Gamma (a + b) / (r + t) ^ (a + b))) ^ Fintype.card ι) := by
  have hG := Real.Gamma_pos_of_pos ha
  have hra : 0 < r ^ a := Real.rpow_pos_of_pos hr a
  have hc : 0 ≤ (r ^ a / Real.Gamma a) ^ Fintype.card ι := by positivity
  have hm := measurable_gammaPot (ι := ι) a r
  have hm' := measurable_gammaPot (ι := ι) b t
  rw [mul_pow, ENNReal.ofReal_mul hc, ← normaliser_gammaPot (ι := ι) (a + b) (r + t) hab hrt, startLaw_density a r ha hr,
    lintegral_withDensity_eq_lintegral_mul _ (by fun_prop) (by fun_prop)]
  unfold Spec.normaliser
  rw [← lintegral_const_mul _ (by have := measurable_gammaPot (ι := ι) (a + b) (r + t); fun_prop)]
  refine lintegral_congr fun x => ?_
  rw [Pi.mul_apply, ENNReal.ofReal_mul hc, mul_assoc, ← ENNReal.ofReal_mul (Real.exp_nonneg _), ← Real.exp_add]
  congr 3
  unfold Spec.gammaPot
  ring

/-- A vector as the (infinite) argument of the potentials of `Sim/Model.lean`. -/
def vecOf {J : ℕ} (x : Fin J → ℝ) (j : ℕ) : ℝ := if h : j < J then x ⟨j, h⟩ else 0

/-- The law of `xx` at the start of a particle: `Gamma(gamma*(delta+1./Ndestinations), 1./(gamma*kappa))` (lines 361-363). -/
noncomputable def codeStart (p : PotParams) (J : ℕ) : Measure (Fin J → ℝ) :=
  startLaw (Fin J) (2 / p.sigma ^ 2 * (p.delta + 1 / J)) (1 / (2 / p.sigma ^ 2 * p.kappa))

/-- The potential of the prior as the annealer evaluates it (line 365). -/
noncomputable def codePrior (p : PotParams) (J : ℕ) (x : Fin J → ℝ) : ℝ := aisPot p J (vecOf x)

/-- The potential of the target as the annealer evaluates it (line 368), totally constrained. -/
noncomputable def codeTarget (p : PotParams) (I J : ℕ) (cost : ℕ → ℕ → ℝ) (x : Fin J → ℝ) : ℝ := sdePotT p I J cost (vecOf x)

theorem codePrior_eq (p : PotParams) (J : ℕ) :
    codePrior p J = Spec.gammaPot (2 / p.sigma ^ 2 * (p.delta + 1 / J)) (2 / p.sigma ^ 2 * p.kappa) := by
  funext x
  unfold codePrior aisPot Spec.gammaPot
  simp only [Finset.sum_range, vecOf, Fin.is_lt, dif_pos]
  rw [← Finset.mul_sum]
  ring

/-- The parameters are such that the Gamma law exists. -/
def Spec.Proper (p : PotParams) (J : ℕ) : Prop := 0 < J ∧ p.sigma ≠ 0 ∧ 0 < p.delta + 1 / J ∧ 0 < p.kappa

theorem Spec.Proper.pos {p : PotParams} {J : ℕ} (h : Spec.Proper p J) :
    0 < 2 / p.sigma ^ 2 * (p.delta + 1 / J) ∧ 0 < 2 / p.sigma ^ 2 * p.kappa := by
  obtain ⟨_, hs, hd, hk⟩ := h
  have : 0 < p.sigma ^ 2 := by positivity
  exact ⟨by positivity, by positivity⟩

/-- **C152 (the start is not the prior).** The particles are started from the prior exactly when `2κ/σ² = 1`: the second argument of
`torch.distributions.Gamma` is a rate, and the code passes the scale. -/
theorem C152_start_iff (p : PotParams) (J : ℕ) (h : Spec.Proper p J) :
    codeStart p J = Spec.gibbsLaw (codePrior p J) ↔ 2 / p.sigma ^ 2 * p.kappa = 1 := by
  obtain ⟨ha, hr⟩ := h.pos
  rw [codePrior_eq]
  unfold codeStart
  set a : ℝ := 2 / p.sigma ^ 2 * (p.delta + 1 / J)
  set r : ℝ := 2 / p.sigma ^ 2 * p.kappa
  rw [← startLaw_eq_gibbs a r ha hr]
  constructor
  · intro he
    have h1 := lintegral_startLaw (ι := Fin J) a (1 / r) 1 0 ha (by positivity) (by linarith) (by positivity)
    have h2 := lintegral_startLaw (ι := Fin J) a r 1 0 ha hr (by linarith) (by linarith)
    rw [he] at h1
    rw [h1] at h2
    have hG := Real.Gamma_pos_of_pos ha
    have hG1 : Real.Gamma (a + 1) = a * Real.Gamma a := Real.Gamma_add_one ha.ne'
    have hval : ∀ q : ℝ, 0 < q → q ^ a / Real.Gamma a * (Real.Gamma (a + 1) / (q + 0) ^ (a + 1)) = a / q := by
      intro q hq
      have hqa : 0 < q ^ a := Real.rpow_pos_of_pos hq a
      rw [hG1, add_zero, Real.rpow_add_one hq.ne']
      field_simp
    rw [hval _ (by positivity), hval _ hr] at h2
    rw [ENNReal.ofReal_eq_ofReal_iff (by positivity) (by positivity)] at h2
    have h3 := (pow_left_inj₀ (a := a / (1 / r)) (b := a / r) (by positivity) (by positivity)
      (by simpa using h.1.ne')).1 h2
    have h4 : r * r = 1 := by
      field_simp at h3
      nlinarith [h3]
    nlinarith [sq_nonneg (r - 1)]
  · intro h1
    rw [h1, div_one]

/-- **C152.** When `2κ/σ² = 1`, the estimate as the code computes it is unbiased for the ratio of the normalising constants of any target
and of the prior. -/
theorem C152_unit_rate_partial (p : PotParams) (J : ℕ) (h : Spec.Proper p J) (h1 : 2 / p.sigma ^ 2 * p.kappa = 1)
    (V1 : (Fin J → ℝ) → ℝ) (hV1 : Measurable V1) (g0 g1 : (Fin J → ℝ) → (Fin J → ℝ)) (k0 : Measurable g0) (k1 : Measurable g1)
    (m : ℕ) (hm : 2 ≤ m) (eps : ℝ) (n N : ℕ) (hN : 0 < N) :
    aisEst (codeStart p J) (codePrior p J) V1 g0 g1 m eps n N N [] = Spec.normaliser V1 / Spec.normaliser (codePrior p J) := by
  rw [(C152_start_iff p J h).2 h1]
  obtain ⟨ha, hr⟩ := h.pos
  have hn := normaliser_gammaPot (ι := Fin J) _ _ ha hr
  rw [← codePrior_eq] at hn
  refine C152_unbiased_partial _ _ _ _ m hm eps n N hN ?_ hV1 k0 k1 ?_ ?_
  · rw [codePrior_eq]; exact measurable_gammaPot _ _
  · rw [hn]
    have hG := Real.Gamma_pos_of_pos ha
    have hra := Real.rpow_pos_of_pos hr (2 / p.sigma ^ 2 * (p.delta + 1 / J))
    simp only [ne_eq, ENNReal.ofReal_eq_zero, not_le]
    positivity
  · rw [hn]; exact ENNReal.ofReal_ne_top


/-- With two temperatures the mean of the estimate is that of plain importance sampling from the starting law. -/
theorem aisEst_two (start : Measure (ι → ℝ)) [IsProbabilityMeasure start] (V0 V1 : (ι → ℝ) → ℝ) (g0 g1 : (ι → ℝ) → (ι → ℝ)) (eps : ℝ)
    (n N : ℕ) (hN : 0 < N) (h0 : Measurable V0) (h1 : Measurable V1) (k0 : Measurable g0) (k1 : Measurable g1) :
    aisEst start V0 V1 g0 g1 2 eps n N N [] = ∫⁻ x, ENNReal.ofReal (Real.exp (V0 x - V1 x)) ∂start := by
  rw [aisEst_eq _ _ _ _ _ _ _ _ _ _ _ (Or.inr hN)]
  have hmean : ∀ x, aisMean V0 V1 g0 g1 (linspace01 2) eps n (fun s => ENNReal.ofReal (Real.exp s.logW)) (2 - 1) 1
        (aisInit V0 V1 g0 g1 (-Real.log N) x) =
      ENNReal.ofReal (Real.exp (-Real.log N)) * ENNReal.ofReal (Real.exp (V0 x - V1 x)) := by
    intro x
    have := aisMean_eq V0 V1 g0 g1 (linspace01 2) eps n h0 h1 k0 k1 (fun _ => 1) measurable_const 1 1 (-Real.log N) x
    simp only [mul_one] at this
    rw [show 2 - 1 = 1 from rfl, this]
    congr 1
    simp only [aisFactor, hmcMean]
    simp [linspace01]
    norm_num
  simp only [hmean]
  rw [lintegral_const_mul _ (by fun_prop), ← mul_assoc, Real.exp_neg, Real.exp_log (by exact_mod_cast hN),
    ENNReal.ofReal_inv_of_pos (by exact_mod_cast hN), ENNReal.ofReal_natCast,
    ENNReal.mul_inv_cancel (by exact_mod_cast hN.ne') (ENNReal.natCast_ne_top N), one_mul]
  simp

/-- **C152 (exact behaviour with two temperatures).** If the difference of the potentials does not change when all log attractions are
shifted by the same amount (as for the totally constrained model with `epsilon = 1`), the wrong rate does no harm with two temperatures:
the estimate is unbiased. -/
theorem C152_two_temperatures_partial (p : PotParams) (J : ℕ) (h : Spec.Proper p J) (V1 : (Fin J → ℝ) → ℝ) (hV1 : Measurable V1)
    (hshift : ∀ (x : Fin J → ℝ) (c : ℝ), codePrior p J (fun j => x j + c) - V1 (fun j => x j + c) = codePrior p J x - V1 x)
    (g0 g1 : (Fin J → ℝ) → (Fin J → ℝ)) (k0 : Measurable g0) (k1 : Measurable g1) (eps : ℝ) (n N : ℕ) (hN : 0 < N) :
    aisEst (codeStart p J) (codePrior p J) V1 g0 g1 2 eps n N N [] = Spec.normaliser V1 / Spec.normaliser (codePrior p J) := by
  obtain ⟨ha, hr⟩ := h.pos
  have hmP : Measurable (codePrior p J) := by rw [codePrior_eq]; exact measurable_gammaPot _ _
  have hr1 : 0 < 1 / (2 / p.sigma ^ 2 * p.kappa) := by positivity
  have hprob : IsProbabilityMeasure (codeStart p J) := isProb_startLaw _ _ ha hr1
  have hn := normaliser_gammaPot (ι := Fin J) _ _ ha hr
  have hG := Real.Gamma_pos_of_pos ha
  have hra := Real.rpow_pos_of_pos hr (2 / p.sigma ^ 2 * (p.delta + 1 / J))
  have hra1 := Real.rpow_pos_of_pos hr1 (2 / p.sigma ^ 2 * (p.delta + 1 / J))
  rw [aisEst_two _ _ _ _ _ eps n N hN hmP hV1 k0 k1]
  unfold codeStart
  rw [startLaw_density _ _ ha hr1, codePrior_eq, hn, lintegral_withDensity_eq_lintegral_mul _
    (by have := measurable_gammaPot (ι := Fin J) (2 / p.sigma ^ 2 * (p.delta + 1 / J)) (1 / (2 / p.sigma ^ 2 * p.kappa)); fun_prop)
    (by have := measurable_gammaPot (ι := Fin J) (2 / p.sigma ^ 2 * (p.delta + 1 / J)) (2 / p.sigma ^ 2 * p.kappa); fun_prop)]
  rw [codePrior_eq] at hshift
  set a : ℝ := 2 / p.sigma ^ 2 * (p.delta + 1 / J)
  set r : ℝ := 2 / p.sigma ^ 2 * p.kappa
  -- shift by the logarithm of the ratio of the rates
  set c : ℝ := Real.log (r / (1 / r)) with hc
  have hec : Real.exp c = r / (1 / r) := Real.exp_log (by positivity)
  rw [← lintegral_add_right_eq_self _ (fun _ : Fin J => c)]
  unfold Spec.normaliser
  have hcr : 0 < (Real.Gamma a / r ^ a) ^ Fintype.card (Fin J) := by positivity
  have hdiv : ∀ z : ℝ≥0∞, z / ENNReal.ofReal ((Real.Gamma a / r ^ a) ^ Fintype.card (Fin J)) =
      ENNReal.ofReal ((Real.Gamma a / r ^ a) ^ Fintype.card (Fin J))⁻¹ * z := by
    intro z
    rw [ENNReal.ofReal_inv_of_pos hcr, div_eq_mul_inv, mul_comm]
  rw [hdiv, ← lintegral_const_mul _ (by fun_prop)]
  refine lintegral_congr fun x => ?_
  have hs := hshift x c
  simp only [Pi.mul_apply]
  have hadd : (x + fun _ => c) = fun j => x j + c := rfl
  rw [hadd, hs, ← ENNReal.ofReal_mul (by positivity), ← ENNReal.ofReal_mul (by positivity)]
  congr 1
  -- the density of the starting law, shifted
  have hpot : Spec.gammaPot a (1 / r) (fun j => x j + c) = Spec.gammaPot a r x - a * (J * c) := by
    unfold Spec.gammaPot
    simp only [Real.exp_add, hec, Finset.sum_add_distrib, Finset.sum_const, Finset.card_univ, Fintype.card_fin, nsmul_eq_mul,
      ← Finset.sum_mul]
    field_simp
    ring
  have hpw : Real.exp (a * (J * c)) = ((r ^ a) / ((1 / r) ^ a)) ^ Fintype.card (Fin J) := by
    rw [Fintype.card_fin, ← Real.div_rpow (by positivity) (by positivity), ← hec, ← Real.exp_mul, ← Real.exp_nat_mul]
    congr 1
    ring
  rw [hpot, neg_sub, sub_eq_add_neg, Real.exp_add, hpw, mul_assoc, mul_assoc, ← Real.exp_add, ← mul_assoc, ← mul_pow]
  congr 1
  · rw [← inv_pow]
    congr 1
    field_simp
  · congr 1
    ring

/-- The totally constrained potential with `epsilon = 1` meets the hypothesis. -/
theorem codeTarget_shift (p : PotParams) (I J : ℕ) (cost : ℕ → ℕ → ℝ) (hI : 0 < I) (hJ : 0 < J) (ha : p.alpha ≠ 0) (he : p.epsilon = 1)
    (x : Fin J → ℝ) (c : ℝ) :
    codePrior p J (fun j => x j + c) - codeTarget p I J cost (fun j => x j + c) = codePrior p J x - codeTarget p I J cost x := by
  unfold codePrior codeTarget aisPot sdePotT lse2
  simp only [Finset.sum_range, vecOf, Fin.is_lt, dif_pos]
  have hne : (∑ i : Fin I, ∑ j : Fin J, Real.exp (p.alpha * x j - p.beta * cost i j)) ≠ 0 := by
    have : Nonempty (Fin I) := ⟨⟨0, hI⟩⟩
    have : Nonempty (Fin J) := ⟨⟨0, hJ⟩⟩
    refine (Finset.sum_pos (fun i _ => Finset.sum_pos (fun j _ => Real.exp_pos _) Finset.univ_nonempty) Finset.univ_nonempty).ne'
  have hl : Real.log (∑ i : Fin I, ∑ j : Fin J, Real.exp (p.alpha * (x j + c) - p.beta * cost i j)) =
      p.alpha * c + Real.log (∑ i : Fin I, ∑ j : Fin J, Real.exp (p.alpha * x j - p.beta * cost i j)) := by
    rw [← Real.log_exp (p.alpha * c), ← Real.log_mul (Real.exp_ne_zero _) hne]
    congr 1
    simp only [Finset.mul_sum, ← Real.exp_add]
    refine Finset.sum_congr rfl fun i _ => Finset.sum_congr rfl fun j _ => ?_
    congr 1
    ring
  have hJ' : (J : ℝ) ≠ 0 := by exact_mod_cast hJ.ne'
  rw [hl, he]
  simp only [Finset.sum_add_distrib, Finset.sum_const, Finset.card_univ, Fintype.card_fin, nsmul_eq_mul, ← Finset.mul_sum]
  field_simp
  ring

/-- A setting meeting the hypotheses of the partial theorems. -/
noncomputable def demoAis : PotParams := { alpha := 1, beta := 0, delta := 0, kappa := 1, sigma := 1, epsilon := 2 }

theorem demoAis_proper (J : ℕ) (hJ : 0 < J) : Spec.Proper demoAis J := by
  refine ⟨hJ, one_ne_zero, ?_, one_pos⟩
  have : (0 : ℝ) < J := by exact_mod_cast hJ
  show (0 : ℝ) < 0 + 1 / J
  positivity

theorem demoTarget_eq : codeTarget demoAis 1 1 (fun _ _ => 0) = Spec.gammaPot 4 4 := by
  funext x
  unfold codeTarget sdePotT lse2 Spec.gammaPot demoAis
  simp [vecOf]
  ring

/-- **C152 is false**: with the law the code starts from, the mean of the estimate is not the ratio of the normalising constants (one
destination, two temperatures, `epsilon = 2`). -/
theorem C152_unbiased_false :
    ¬ ∀ (p : PotParams) (I J : ℕ) (cost : ℕ → ℕ → ℝ) (g0 g1 : (Fin J → ℝ) → (Fin J → ℝ)) (m : ℕ) (eps : ℝ) (n N : ℕ),
      Spec.Proper p J → 0 < I → p.alpha ≠ 0 → Measurable g0 → Measurable g1 → 2 ≤ m → 0 < N →
      aisEst (codeStart p J) (codePrior p J) (codeTarget p I J cost) g0 g1 m eps n N N [] =
        Spec.normaliser (codeTarget p I J cost) / Spec.normaliser (codePrior p J) := by
  intro hall
  have hp := demoAis_proper 1 one_pos
  obtain ⟨ha, hr⟩ := hp.pos
  have h := hall demoAis 1 1 (fun _ _ => 0) id id 2 1 0 1 hp one_pos one_ne_zero measurable_id measurable_id le_rfl one_pos
  have hprior : codePrior demoAis 1 = Spec.gammaPot 2 2 := by
    rw [codePrior_eq]
    simp [demoAis]
  have hstart : codeStart demoAis 1 = startLaw (Fin 1) 2 (1 / 2) := by
    unfold codeStart
    simp [demoAis]
  rw [demoTarget_eq, hprior, hstart] at h
  have hprob : IsProbabilityMeasure (startLaw (Fin 1) 2 (1 / 2)) := isProb_startLaw _ _ (by norm_num) (by norm_num)
  rw [aisEst_two _ _ _ _ _ _ _ _ one_pos (measurable_gammaPot _ _) (measurable_gammaPot _ _) measurable_id measurable_id] at h
  have hd : ∀ x : Fin 1 → ℝ, Spec.gammaPot 2 2 x - Spec.gammaPot 4 4 x = -Spec.gammaPot 2 2 x := by
    intro x
    unfold Spec.gammaPot
    ring
  simp only [hd] at h
  rw [lintegral_startLaw 2 (1 / 2) 2 2 (by norm_num) (by norm_num) (by norm_num) (by norm_num),
    normaliser_gammaPot 4 4 (by norm_num) (by norm_num), normaliser_gammaPot 2 2 (by norm_num) (by norm_num)] at h
  have g2 : Real.Gamma 2 = 1 := by simp
  have g4 : Real.Gamma 4 = 6 := by
    rw [show (4 : ℝ) = ((3 : ℕ) : ℝ) + 1 by norm_num, Real.Gamma_nat_eq_factorial]
    norm_num [Nat.factorial]
  have p1 : ((1 / 2 : ℝ)) ^ (2 : ℝ) = 1 / 4 := by
    rw [show (2 : ℝ) = ((2 : ℕ) : ℝ) by norm_num, Real.rpow_natCast]; norm_num
  have p2 : ((1 / 2 : ℝ) + 2) ^ (2 + 2 : ℝ) = 625 / 16 := by
    rw [show (2 + 2 : ℝ) = ((4 : ℕ) : ℝ) by norm_num, Real.rpow_natCast]; norm_num
  have p3 : (4 : ℝ) ^ (4 : ℝ) = 256 := by
    rw [show (4 : ℝ) ^ (4 : ℝ) = (4 : ℝ) ^ ((4 : ℕ) : ℝ) by norm_num, Real.rpow_natCast]; norm_num
  have p4 : (2 : ℝ) ^ (2 : ℝ) = 4 := by
    rw [show (2 : ℝ) ^ (2 : ℝ) = (2 : ℝ) ^ ((2 : ℕ) : ℝ) by norm_num, Real.rpow_natCast]; norm_num
  rw [p1, p2, p3, p4, g2, show (2 + 2 : ℝ) = 4 by norm_num, g4, ← ENNReal.ofReal_div_of_pos (by norm_num)] at h
  rw [ENNReal.ofReal_eq_ofReal_iff (by positivity) (by positivity)] at h
  norm_num at h

/-! ## Cases meeting the hypotheses -/

/-- `kappa = 1/2`, `sigma = 1`: the start is the prior. -/
noncomputable def demoUnit : PotParams := { alpha := 1, beta := 1, delta := 0, kappa := 1 / 2, sigma := 1, epsilon := 1 }

theorem demoUnit_proper (J : ℕ) (hJ : 0 < J) : Spec.Proper demoUnit J := by
  refine ⟨hJ, one_ne_zero, ?_, ?_⟩
  · have : (0 : ℝ) < J := by exact_mod_cast hJ
    show (0 : ℝ) < 0 + 1 / J
    positivity
  · show (0 : ℝ) < 1 / 2
    norm_num

theorem measurable_codeTarget (p : PotParams) (I J : ℕ) (cost : ℕ → ℕ → ℝ) : Measurable (codeTarget p I J cost) := by
  unfold codeTarget sdePotT lse2
  simp only [Finset.sum_range, vecOf, Fin.is_lt, dif_pos]
  fun_prop

/-- Three destinations, ten temperatures, five particles, the model's own target. -/
example (g0 g1 : (Fin 3 → ℝ) → (Fin 3 → ℝ)) (k0 : Measurable g0) (k1 : Measurable g1) (cost : ℕ → ℕ → ℝ) :
    aisEst (codeStart demoUnit 3) (codePrior demoUnit 3) (codeTarget demoUnit 2 3 cost) g0 g1 10 (1 / 10) 4 5 5 [] =
      Spec.normaliser (codeTarget demoUnit 2 3 cost) / Spec.normaliser (codePrior demoUnit 3) :=
  C152_unit_rate_partial demoUnit 3 (demoUnit_proper 3 (by norm_num)) (by norm_num [demoUnit]) _ (measurable_codeTarget _ _ _ _)
    g0 g1 k0 k1 10 (by norm_num) _ _ 5 (by norm_num)

/-- A setting where the start is not the prior but two temperatures suffice. -/
noncomputable def demoTwo : PotParams := { alpha := 1, beta := 1, delta := 0, kappa := 1, sigma := 1, epsilon := 1 }

theorem demoTwo_proper : Spec.Proper demoTwo 3 := by
  refine ⟨by norm_num, one_ne_zero, ?_, one_pos⟩
  show (0 : ℝ) < 0 + 1 / (3 : ℕ)
  norm_num

example (cost : ℕ → ℕ → ℝ) :
    aisEst (codeStart demoTwo 3) (codePrior demoTwo 3) (codeTarget demoTwo 2 3 cost) id id 2 (1 / 10) 4 5 5 [] =
      Spec.normaliser (codeTarget demoTwo 2 3 cost) / Spec.normaliser (codePrior demoTwo 3) :=
  C152_two_temperatures_partial demoTwo 3 demoTwo_proper (codeTarget demoTwo 2 3 cost) (measurable_codeTarget demoTwo 2 3 cost)
    (codeTarget_shift demoTwo 2 3 cost (by norm_num) (by norm_num) one_ne_zero rfl) id id measurable_id measurable_id (1 / 10) 4 5
    (by norm_num)

example : codeStart demoAis 3 ≠ Spec.gibbsLaw (codePrior demoAis 3) := fun h => by
  have := (C152_start_iff demoAis 3 (demoAis_proper 3 (by norm_num))).1 h
  norm_num [demoAis] at this

end GeNSIT
