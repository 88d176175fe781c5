import Verif.Sampler.Props
import Mathlib.MeasureTheory.Measure.Lebesgue.Basic
import Mathlib.MeasureTheory.Measure.Prod
import Mathlib.MeasureTheory.Group.Measure
import Mathlib.MeasureTheory.Measure.Haar.Unique
import Mathlib.MeasureTheory.Measure.Lebesgue.EqHaar

/-!
# C58: volume preservation and detailed balance of the leapfrog proposal
-/

namespace GeNSIT

open MeasureTheory

variable {ι : Type} [Fintype ι]

/-- Momentum kick. -/
theorem measurePreserving_kick (c : ℝ) (g : (ι → ℝ) → (ι → ℝ)) (hg : Measurable g) :
    MeasurePreserving (fun s : (ι → ℝ) × (ι → ℝ) => (s.1, s.2 - c • g s.1)) volume volume := by
  have := MeasurePreserving.skew_product (μa := (volume : Measure (ι → ℝ)))
    (μb := volume) (μc := (volume : Measure (ι → ℝ))) (μd := volume)
    (f := id) (g := fun x p => p - c • g x) (MeasurePreserving.id _)
    (by
      have : Measurable fun s : (ι → ℝ) × (ι → ℝ) => s.2 - c • g s.1 :=
        measurable_snd.sub ((hg.comp measurable_fst).const_smul c)
      exact this)
    (by
      refine Filter.Eventually.of_forall fun x => ?_
      exact (measurePreserving_sub_right volume (c • g x)).map_eq)
  exact this

/-- Position drift. -/
theorem measurePreserving_drift (eps : ℝ) :
    MeasurePreserving (fun s : (ι → ℝ) × (ι → ℝ) => (s.1 + eps • s.2, s.2)) volume volume := by
  have h1 := MeasurePreserving.skew_product (μa := (volume : Measure (ι → ℝ)))
    (μb := volume) (μc := (volume : Measure (ι → ℝ))) (μd := volume)
    (f := id) (g := fun p x => x + eps • p) (MeasurePreserving.id _)
    (by
      have : Measurable fun s : (ι → ℝ) × (ι → ℝ) => s.2 + eps • s.1 :=
        measurable_snd.add (measurable_fst.const_smul eps)
      exact this)
    (by
      refine Filter.Eventually.of_forall fun p => ?_
      exact (measurePreserving_add_right volume (eps • p)).map_eq)
  have hs : MeasurePreserving (Prod.swap : (ι → ℝ) × (ι → ℝ) → _) volume volume :=
    Measure.measurePreserving_swap
  exact hs.comp (h1.comp hs)

theorem measurePreserving_kdk (eps : ℝ) (g : (ι → ℝ) → (ι → ℝ)) (hg : Measurable g) :
    MeasurePreserving (kdk eps g) volume volume :=
  (measurePreserving_kick (1 / 2 * eps) g hg).comp
    ((measurePreserving_drift eps).comp (measurePreserving_kick (1 / 2 * eps) g hg))

theorem measurePreserving_flipMom :
    MeasurePreserving (flipMom : (ι → ℝ) × (ι → ℝ) → _) volume volume :=
  (MeasurePreserving.id volume).prod (Measure.measurePreserving_neg volume)

/-- **C58.** The leapfrog integrator preserves phase-space volume, for every measurable gradient. -/
theorem C58_volume_preserving (eps : ℝ) (g : (ι → ℝ) → (ι → ℝ)) (hg : Measurable g) (n : ℕ) :
    MeasurePreserving (leapfrog eps g n) volume volume := by
  have : leapfrog eps g n = (kdk eps g)^[n] := funext fun s => leapfrog_eq_iter eps g n s
  rw [this]
  exact (measurePreserving_kdk eps g hg).iterate n

/-- The proposal: run the integrator and reverse the momentum. -/
noncomputable def hmcProposal (eps : ℝ) (g : (ι → ℝ) → (ι → ℝ)) (n : ℕ)
    (s : (ι → ℝ) × (ι → ℝ)) : (ι → ℝ) × (ι → ℝ) := flipMom (leapfrog eps g n s)

/-- Probability that the acceptance test `log u < H(s) - H(s')` of the code succeeds for a uniform
`u`. -/
noncomputable def acceptProb (V : (ι → ℝ) → ℝ) (s s' : (ι → ℝ) × (ι → ℝ)) : ENNReal :=
  min 1 (ENNReal.ofReal (Real.exp (Spec.energy V s.1 s.2 - Spec.energy V s'.1 s'.2)))

/-- The density the step should leave invariant: `exp(-H)`. -/
noncomputable def gibbsDensity (V : (ι → ℝ) → ℝ) (s : (ι → ℝ) × (ι → ℝ)) : ENNReal :=
  ENNReal.ofReal (Real.exp (-Spec.energy V s.1 s.2))

theorem gibbs_mul_accept (V : (ι → ℝ) → ℝ) (s s' : (ι → ℝ) × (ι → ℝ)) :
    gibbsDensity V s * acceptProb V s s' = min (gibbsDensity V s) (gibbsDensity V s') := by
  unfold gibbsDensity acceptProb
  rw [mul_min, mul_one, ← ENNReal.ofReal_mul (Real.exp_nonneg _), ← Real.exp_add]
  congr 3
  ring_nf

/-- **C58.** The set of uniforms for which the test succeeds has exactly that probability. -/
theorem C58_accept_probability (V : (ι → ℝ) → ℝ) (s s' : (ι → ℝ) × (ι → ℝ)) :
    volume {u : ℝ | 0 < u ∧ u < 1 ∧
      Real.log u < Spec.energy V s.1 s.2 - Spec.energy V s'.1 s'.2} = acceptProb V s s' := by
  unfold acceptProb
  generalize Spec.energy V s.1 s.2 - Spec.energy V s'.1 s'.2 = d
  have : {u : ℝ | 0 < u ∧ u < 1 ∧ Real.log u < d} = Set.Ioo 0 (min 1 (Real.exp d)) := by
    ext u
    simp only [Set.mem_ofPred_eq, Set.mem_Ioo, lt_min_iff]
    constructor
    · rintro ⟨h0, h1, h2⟩
      exact ⟨h0, h1, (Real.log_lt_iff_lt_exp h0).1 h2⟩
    · rintro ⟨h0, h1, h2⟩
      exact ⟨h0, h1, (Real.log_lt_iff_lt_exp h0).2 h2⟩
  rw [this, Real.volume_Ioo, sub_zero]
  rcases le_total 1 (Real.exp d) with h | h
  · rw [min_eq_left h, min_eq_left]
    · simp
    · rw [← ENNReal.ofReal_one]
      exact ENNReal.ofReal_le_ofReal h
  · rw [min_eq_right h, min_eq_right]
    rw [← ENNReal.ofReal_one]
    exact ENNReal.ofReal_le_ofReal h

/-- **C58 (detailed balance).** For every potential and every gradient (right or wrong), accepted
moves of the annealing step satisfy detailed balance with respect to `exp(-H)`: the flow from a
region to another equals the flow back, for all test functions. -/
theorem C58_detailed_balance (V : (ι → ℝ) → ℝ) (eps : ℝ) (g : (ι → ℝ) → (ι → ℝ)) (n : ℕ)
    (hg : Measurable g) (hV : Measurable V) (phi psi : (ι → ℝ) × (ι → ℝ) → ENNReal)
    (hphi : Measurable phi) (hpsi : Measurable psi) :
    ∫⁻ s, phi s * psi (hmcProposal eps g n s) *
        (gibbsDensity V s * acceptProb V s (hmcProposal eps g n s)) =
      ∫⁻ s, psi s * phi (hmcProposal eps g n s) *
        (gibbsDensity V s * acceptProb V s (hmcProposal eps g n s)) := by
  have hF : MeasurePreserving (hmcProposal eps g n) volume volume :=
    measurePreserving_flipMom.comp (C58_volume_preserving eps g hg n)
  have hinv : ∀ s, hmcProposal eps g n (hmcProposal eps g n s) = s := by
    intro s
    have := C58_reversible eps g n s.1 s.2
    unfold hmcProposal
    rw [show flipMom (leapfrog eps g n s) =
      ((leapfrog eps g n (s.1, s.2)).1, -(leapfrog eps g n (s.1, s.2)).2) from rfl, this]
    simp [flipMom]
  have hgib : Measurable (gibbsDensity V) := by
    unfold gibbsDensity Spec.energy Spec.kinetic
    fun_prop
  simp only [gibbs_mul_accept]
  have hm : Measurable fun s => psi s * phi (hmcProposal eps g n s) *
      min (gibbsDensity V s) (gibbsDensity V (hmcProposal eps g n s)) :=
    (hpsi.mul (hphi.comp hF.measurable)).mul (hgib.min (hgib.comp hF.measurable))
  rw [← hF.lintegral_comp hm]
  refine lintegral_congr fun s => ?_
  rw [hinv s, mul_comm (phi s), min_comm]

example : Measurable (fun x : Fin 1 → ℝ => (2 : ℝ) • x) := by fun_prop

end GeNSIT
