import Verif.Sampler.Stationary
import Verif.Stats.Likelihood

/-!
# C158: an iteration of the joint sampler and the joint law of parameters and table

`JointTableSIM_MCMC.run` (`gensit/experiments.py:1676-1790`), as modelled by `jointStep` in `Verif/Sampler/Model.lean`: the mean, over all random draws of
one or several iterations, of functions of the parameters and the table.  Here the attractions stay as they are (no attraction steps; these are C157) and
the estimate of `1/z` is a function of the parameters (a random estimate is C156).
-/

set_option linter.unusedSectionVars false

namespace GeNSIT

open MeasureTheory ENNReal Set

variable {ι T : Type} [Fintype ι]

/-- The mean of `F` of the state after `k` parameter steps (lines 1676-1708): the steps of the walk have density `q`. -/
noncomputable def thetaMean (ph : Phys ℝ ι T) (z : (Fin 2 → ℝ) → ℝ × ℝ) (q : ℝ × ℝ → ℝ≥0∞) (F : JointState ℝ ι T → ℝ≥0∞) : ℕ → JointState ℝ ι T → ℝ≥0∞
  | 0, s => F s
  | k + 1, s => ∫⁻ w, q w * ∫⁻ u in Ioo (0 : ℝ) 1, (jointStep ph s (.theta ![w.1, w.2] z (Real.log u))).elim 0 (thetaMean ph z q F k)

/-- The mean of `psi` of parameters and table after `N` iterations of `M` parameter steps and the table steps (lines 1663-1790).  `law th t t'` is the
probability that the table steps lead from `t` to `t'` when they are given the intensity of the parameters `th`; the code gives them the parameters as
they are stored (lines 1741-1745). -/
noncomputable def jointMean (ph : Phys ℝ ι T) (z : (Fin 2 → ℝ) → ℝ × ℝ) (q : ℝ × ℝ → ℝ≥0∞) (M : ℕ) (S : Finset T)
    (law : (Fin 2 → ℝ) → T → T → ℝ≥0∞) (psi : ℝ × ℝ → T → ℝ≥0∞) : ℕ → JointState ℝ ι T → ℝ≥0∞
  | 0, s => psi (s.theta 0, s.theta 1) s.table
  | N + 1, s => thetaMean ph z q
      (fun s' => ∑ t ∈ S, law s'.theta s'.table t * (jointStep ph s' (.tables t)).elim 0 (jointMean ph z q M S law psi N)) M s

/-- The state of the sampler at given parameters and table, everything cached evaluated there. -/
noncomputable def stateAt (ph : Phys ℝ ι T) (z : (Fin 2 → ℝ) → ℝ × ℝ) (x : ι → ℝ) (a : ℝ × ℝ) (t : T) : JointState ℝ ι T :=
  jointInit ph ![a.1, a.2] x t (z ![a.1, a.2 * ph.bmax])

/-- The joint posterior weight of parameters (on the box) and table: `exp(log 1/z - V)` times the likelihood of the table, at the scaled parameters. -/
noncomputable def Spec.jointWeight (logZ V : ℝ × ℝ → ℝ) (nlt : ℝ × ℝ → T → ℝ) (bmax : ℝ) (a : ℝ × ℝ) (t : T) : ℝ≥0∞ :=
  ENNReal.ofReal (Real.exp (logZ (a.1, a.2 * bmax) - V (a.1, a.2 * bmax) - nlt (a.1, a.2 * bmax) t))

noncomputable def jointLp (ph : Phys ℝ ι T) (z : (Fin 2 → ℝ) → ℝ × ℝ) (x : ι → ℝ) (t : T) (a : ℝ × ℝ) : ℝ :=
  (z ![a.1, a.2 * ph.bmax]).1 - ph.pot ![a.1, a.2 * ph.bmax] x - ph.nlt ![a.1, a.2 * ph.bmax] x t

theorem scale_pair (b : ℝ) (a : ℝ × ℝ) : scaleTheta b ![a.1, a.2] = ![a.1, a.2 * b] := by
  funext i
  fin_cases i <;> simp [scaleTheta]

/-- A parameter step from a coherent state leads to a coherent state, at the parameters of the Metropolis step. -/
theorem jointStep_theta_stateAt (ph : Phys ℝ ι T) (z : (Fin 2 → ℝ) → ℝ × ℝ) (x : ι → ℝ) (a w : ℝ × ℝ) (t : T) (u : ℝ) :
    jointStep ph (stateAt ph z x a t) (.theta ![w.1, w.2] z (Real.log u)) = some (stateAt ph z x (metroStep (jointLp ph z x t) a w u) t) := by
  have hprop : thetaProposal ![a.1, a.2] ![w.1, w.2] = ![(fold2 a w).1, (fold2 a w).2] := by
    funext i
    fin_cases i <;> simp [thetaProposal, fold2]
  have ho := outside_iff (thetaProposal ![a.1, a.2] ![w.1, w.2])
  rw [hprop, inBox_pair] at ho
  unfold metroStep
  simp only [jointStep, thetaStepT, stateAt, jointInit, scale_pair, hprop]
  by_cases hb : fold2 a w ∈ box
  · have hn : ¬ outsideBox ![(fold2 a w).1, (fold2 a w).2] := fun h => (ho.1 h) hb
    simp only [hn, if_false, hb, true_and]
    by_cases hl : Real.log u < jointLp ph z x t (fold2 a w) - jointLp ph z x t a
    · rw [if_pos hl]
      unfold jointLp at hl
      simp only [hl, if_true]
    · rw [if_neg hl]
      unfold jointLp at hl
      simp only [hl, if_false]
  · have hn : outsideBox ![(fold2 a w).1, (fold2 a w).2] := ho.2 hb
    simp only [hn, hb, if_true, false_and, if_false]

/-- The mean after `k` Metropolis steps of the parameters. -/
noncomputable def metroMean (L : ℝ × ℝ → ℝ) (q : ℝ × ℝ → ℝ≥0∞) (g : ℝ × ℝ → ℝ≥0∞) : ℕ → ℝ × ℝ → ℝ≥0∞
  | 0, a => g a
  | k + 1, a => ∫⁻ w, q w * ∫⁻ u in Ioo (0 : ℝ) 1, metroMean L q g k (metroStep L a w u)

theorem thetaMean_stateAt (ph : Phys ℝ ι T) (z : (Fin 2 → ℝ) → ℝ × ℝ) (q : ℝ × ℝ → ℝ≥0∞) (F : JointState ℝ ι T → ℝ≥0∞) (x : ι → ℝ) (t : T)
    (k : ℕ) : ∀ a, thetaMean ph z q F k (stateAt ph z x a t) = metroMean (jointLp ph z x t) q (fun b => F (stateAt ph z x b t)) k a := by
  induction k with
  | zero => intro a; rfl
  | succ k ih =>
    intro a
    simp only [thetaMean, metroMean, jointStep_theta_stateAt, Option.elim, ih]

theorem measurable_metroMean (L : ℝ × ℝ → ℝ) (hL : Measurable L) (q : ℝ × ℝ → ℝ≥0∞) (hq : Measurable q) (g : ℝ × ℝ → ℝ≥0∞) (hg : Measurable g)
    (k : ℕ) : Measurable (metroMean L q g k) := by
  induction k with
  | zero => exact hg
  | succ k ih =>
    have hf : Measurable fun p : (ℝ × ℝ) × (ℝ × ℝ) => fold2 p.1 p.2 := by
      have hr := measurable_reflect
      unfold fold2; fun_prop
    have hA : Measurable fun p : (ℝ × ℝ) × (ℝ × ℝ) => metroAcc L p.1 p.2 := by
      have : (fun p : (ℝ × ℝ) × (ℝ × ℝ) => metroAcc L p.1 p.2) =
          (Prod.snd ⁻¹' box).indicator fun p => min 1 (ENNReal.ofReal (Real.exp (L p.2 - L p.1))) := by
        funext p
        by_cases h : p.2 ∈ box
        · simp [metroAcc, h]
        · simp [metroAcc, h]
      rw [this]
      exact Measurable.indicator (by fun_prop) (measurable_snd measurableSet_box)
    have hAf : Measurable fun p : (ℝ × ℝ) × (ℝ × ℝ) => metroAcc L p.1 (fold2 p.1 p.2) := hA.comp (measurable_fst.prodMk hf)
    have h1 : Measurable fun p : (ℝ × ℝ) × (ℝ × ℝ) => q p.2 * (metroAcc L p.1 (fold2 p.1 p.2) * metroMean L q g k (fold2 p.1 p.2) +
        (1 - metroAcc L p.1 (fold2 p.1 p.2)) * metroMean L q g k p.1) :=
      (hq.comp measurable_snd).mul ((hAf.mul (ih.comp hf)).add ((measurable_const.sub hAf).mul (ih.comp measurable_fst)))
    have e : metroMean L q g (k + 1) = fun a => ∫⁻ w, q w * (metroAcc L a (fold2 a w) * metroMean L q g k (fold2 a w) +
        (1 - metroAcc L a (fold2 a w)) * metroMean L q g k a) := by
      funext a
      simp only [metroMean, lintegral_metroStep]
    rw [e]
    exact h1.lintegral_prod_right'

theorem metroMean_invariant (L : ℝ × ℝ → ℝ) (hL : Measurable L) (q : ℝ × ℝ → ℝ≥0∞) (hq : Measurable q)
    (hq1 : ∫⁻ w, q w = 1) (h0 : ∀ w, q (-w.1, w.2) = q w) (h1 : ∀ w, q (w.1, -w.2) = q w)
    (g : ℝ × ℝ → ℝ≥0∞) (hg : Measurable g) (k : ℕ) :
    ∫⁻ a in box, Spec.posterior L a * metroMean L q g k a = ∫⁻ a in box, Spec.posterior L a * g a := by
  induction k with
  | zero => rfl
  | succ k ih =>
    rw [← ih]
    exact metro_stationary L hL q hq hq1 h0 h1 _ (measurable_metroMean L hL q hq g hg k)

section

variable (ph : Phys ℝ ι T) (z : (Fin 2 → ℝ) → ℝ × ℝ) (x : ι → ℝ) (q : ℝ × ℝ → ℝ≥0∞) (M : ℕ) (S : Finset T)
  (law : (Fin 2 → ℝ) → T → T → ℝ≥0∞) (psi : ℝ × ℝ → T → ℝ≥0∞)

/-- The hypotheses on the walk: a density that does not depend on the signs of the coordinates. -/
structure Spec.SignFreeWalk (q : ℝ × ℝ → ℝ≥0∞) : Prop where
  meas : Measurable q
  mass : ∫⁻ w, q w = 1
  sign0 : ∀ w, q (-w.1, w.2) = q w
  sign1 : ∀ w, q (w.1, -w.2) = q w

theorem jointWeight_eq (a : ℝ × ℝ) (t : T) :
    Spec.jointWeight (fun b => (z ![b.1, b.2]).1) (fun b => ph.pot ![b.1, b.2] x) (fun b t => ph.nlt ![b.1, b.2] x t) ph.bmax a t =
      Spec.posterior (jointLp ph z x t) a := rfl

/-- The mean over one iteration, started from the joint posterior. -/
theorem iteration_law (hq : Spec.SignFreeWalk q) (hL : ∀ t ∈ S, Measurable (jointLp ph z x t))
    (hlaw : ∀ t t', Measurable fun a : ℝ × ℝ => law ![a.1, a.2] t t') (hpsi : ∀ t, Measurable fun a => psi a t) :
    ∑ t ∈ S, ∫⁻ a in box, Spec.posterior (jointLp ph z x t) a *
        metroMean (jointLp ph z x t) q (fun b => ∑ t' ∈ S, law ![b.1, b.2] t t' * psi b t') M a =
      ∑ t' ∈ S, ∫⁻ a in box, (∑ t ∈ S, Spec.posterior (jointLp ph z x t) a * law ![a.1, a.2] t t') * psi a t' := by
  have hmeas : ∀ t, Measurable fun b : ℝ × ℝ => ∑ t' ∈ S, law ![b.1, b.2] t t' * psi b t' := fun t =>
    Finset.measurable_fun_sum _ fun t' _ => (hlaw t t').mul (hpsi t')
  rw [Finset.sum_congr rfl fun t ht => metroMean_invariant (jointLp ph z x t) (hL t ht) q hq.meas hq.mass hq.sign0 hq.sign1 _ (hmeas t) M]
  have hw : ∀ t ∈ S, Measurable fun a => Spec.posterior (jointLp ph z x t) a := by
    intro t ht
    have := hL t ht
    unfold Spec.posterior
    fun_prop
  have hm3 : ∀ t ∈ S, ∀ t', AEMeasurable (fun a : ℝ × ℝ => Spec.posterior (jointLp ph z x t) a * (law ![a.1, a.2] t t' * psi a t'))
      (volume.restrict box) := fun t ht t' => ((hw t ht).mul ((hlaw t t').mul (hpsi t'))).aemeasurable
  have e1 : ∀ t ∈ S, ∫⁻ a in box, Spec.posterior (jointLp ph z x t) a * ∑ t' ∈ S, law ![a.1, a.2] t t' * psi a t' =
      ∑ t' ∈ S, ∫⁻ a in box, Spec.posterior (jointLp ph z x t) a * (law ![a.1, a.2] t t' * psi a t') := by
    intro t ht
    simp only [Finset.mul_sum]
    exact lintegral_finsetSum' _ fun t' _ => hm3 t ht t'
  have e2 : ∀ t' ∈ S, ∫⁻ a in box, (∑ t ∈ S, Spec.posterior (jointLp ph z x t) a * law ![a.1, a.2] t t') * psi a t' =
      ∑ t ∈ S, ∫⁻ a in box, Spec.posterior (jointLp ph z x t) a * (law ![a.1, a.2] t t' * psi a t') := by
    intro t' _
    simp only [Finset.sum_mul, mul_assoc]
    exact lintegral_finsetSum' _ fun t ht => hm3 t ht t'
  rw [Finset.sum_congr rfl e1, Finset.sum_congr rfl e2, Finset.sum_comm]

/-- **C158 (one iteration, any scaling factor).** Start parameters and table from the joint posterior; after one iteration the parameters have their
marginal posterior law, and the table, given the parameters, has the law that the table steps at the *unscaled* parameters make of the table's
law given the (scaled) parameters. -/
theorem C158_one_iteration (hq : Spec.SignFreeWalk q) (hL : ∀ t ∈ S, Measurable (jointLp ph z x t))
    (hlaw : ∀ t t', Measurable fun a : ℝ × ℝ => law ![a.1, a.2] t t') (hpsi : ∀ t, Measurable fun a => psi a t) :
    let weight := Spec.jointWeight (fun b => (z ![b.1, b.2]).1) (fun b => ph.pot ![b.1, b.2] x) (fun b t => ph.nlt ![b.1, b.2] x t) ph.bmax
    ∑ t ∈ S, ∫⁻ a in Ico 0 2 ×ˢ Ico 0 2, weight a t * jointMean ph z q M S law psi 1 (stateAt ph z x a t) =
      ∑ t' ∈ S, ∫⁻ a in Ico 0 2 ×ˢ Ico 0 2, (∑ t ∈ S, weight a t * law ![a.1, a.2] t t') * psi a t' := by
  intro weight
  refine Eq.trans ?_ (iteration_law ph z x q M S law psi hq hL hlaw hpsi)
  refine Finset.sum_congr rfl fun t ht => lintegral_congr fun a => ?_
  refine congrArg₂ _ rfl ?_
  simp only [jointMean]
  rw [thetaMean_stateAt]
  rfl

/-- With scaling factor one the table steps leave the caches right. -/
theorem jointStep_tables_stateAt (hb : ph.bmax = 1) (b : ℝ × ℝ) (t t' : T) :
    jointStep ph (stateAt ph z x b t) (.tables t') = some (stateAt ph z x b t') := by
  unfold stateAt jointInit
  simp only [jointStep, scale_pair, hb, mul_one]

theorem jointMean_stateAt (hb : ph.bmax = 1) (N : ℕ) (a : ℝ × ℝ) (t : T) :
    jointMean ph z q M S law psi (N + 1) (stateAt ph z x a t) =
      metroMean (jointLp ph z x t) q (fun b => ∑ t' ∈ S, law ![b.1, b.2] t t' * jointMean ph z q M S law psi N (stateAt ph z x b t')) M a := by
  simp only [jointMean]
  rw [thetaMean_stateAt]
  simp only [jointStep_tables_stateAt ph z x hb, Option.elim]
  rfl

/-- **C158 (part that holds).** With scaling factor one and no attraction steps: if the table steps leave the law of the table given the parameters
invariant, then `N` iterations leave the joint posterior of parameters and table invariant. -/
theorem C158_invariant_partial (hb : ph.bmax = 1) (hq : Spec.SignFreeWalk q) (hL : ∀ t ∈ S, Measurable (jointLp ph z x t))
    (hlaw : ∀ t t', Measurable fun a : ℝ × ℝ => law ![a.1, a.2] t t') (hpsi : ∀ t, Measurable fun a => psi a t)
    (hinv : ∀ a ∈ Ico (0 : ℝ) 2 ×ˢ Ico (0 : ℝ) 2, ∀ t' ∈ S,
      ∑ t ∈ S, ENNReal.ofReal (Real.exp (-ph.nlt ![a.1, a.2] x t)) * law ![a.1, a.2] t t' =
        ENNReal.ofReal (Real.exp (-ph.nlt ![a.1, a.2] x t'))) (N : ℕ) :
    let weight := Spec.jointWeight (fun b => (z ![b.1, b.2]).1) (fun b => ph.pot ![b.1, b.2] x) (fun b t => ph.nlt ![b.1, b.2] x t) 1
    ∑ t ∈ S, ∫⁻ a in Ico 0 2 ×ˢ Ico 0 2, weight a t * jointMean ph z q M S law psi N (stateAt ph z x a t) =
      ∑ t ∈ S, ∫⁻ a in Ico 0 2 ×ˢ Ico 0 2, weight a t * psi a t := by
  have hwt : ∀ a t, Spec.jointWeight (fun b => (z ![b.1, b.2]).1) (fun b => ph.pot ![b.1, b.2] x) (fun b t => ph.nlt ![b.1, b.2] x t) 1 a t =
      Spec.posterior (jointLp ph z x t) a := by
    intro a t
    rw [← jointWeight_eq, hb]
  have hmeas : ∀ t ∈ S, ∀ N, Measurable fun a => jointMean ph z q M S law psi N (stateAt ph z x a t) := by
    intro t ht N
    induction N generalizing t with
    | zero => exact hpsi t
    | succ N ih =>
      simp only [jointMean_stateAt ph z x q M S law psi hb]
      refine measurable_metroMean _ (hL t ht) q hq.meas _ ?_ M
      exact Finset.measurable_fun_sum _ fun t' ht' => (hlaw t t').mul (ih t' ht')
  intro weight
  simp only [show weight = Spec.jointWeight (fun b => (z ![b.1, b.2]).1) (fun b => ph.pot ![b.1, b.2] x) (fun b t => ph.nlt ![b.1, b.2] x t) 1 from rfl, hwt]
  induction N with
  | zero => rfl
  | succ N ih =>
    rw [← ih]
    simp only [jointMean_stateAt ph z x q M S law psi hb]
    classical
    -- outside the support of tables nothing is counted
    let G : ℝ × ℝ → T → ℝ≥0∞ := fun a t => if t ∈ S then jointMean ph z q M S law psi N (stateAt ph z x a t) else 0
    have hG : ∀ t, Measurable fun a => G a t := by
      intro t
      by_cases ht : t ∈ S
      · simp only [G, ht, if_true]; exact hmeas t ht N
      · simp only [G, ht, if_false]; exact measurable_const
    have hGS : ∀ a, ∀ t ∈ S, jointMean ph z q M S law psi N (stateAt ph z x a t) = G a t := by
      intro a t ht
      simp only [G, ht, if_true]
    have hin : ∀ t, (fun b : ℝ × ℝ => ∑ t' ∈ S, law ![b.1, b.2] t t' * jointMean ph z q M S law psi N (stateAt ph z x b t')) =
        fun b => ∑ t' ∈ S, law ![b.1, b.2] t t' * G b t' := by
      intro t
      funext b
      exact Finset.sum_congr rfl fun t' ht' => by rw [hGS b t' ht']
    simp only [hin]
    refine (iteration_law ph z x q M S law G hq hL hlaw hG).trans ?_
    refine Finset.sum_congr rfl fun t' ht' => ?_
    refine setLIntegral_congr_fun measurableSet_box fun a ha => ?_
    rw [hGS a t' ht']
    congr 1
    have hp : ∀ t, Spec.posterior (jointLp ph z x t) a =
        ENNReal.ofReal (Real.exp ((z ![a.1, a.2]).1 - ph.pot ![a.1, a.2] x)) * ENNReal.ofReal (Real.exp (-ph.nlt ![a.1, a.2] x t)) := by
      intro t
      unfold Spec.posterior jointLp
      rw [← ENNReal.ofReal_mul (Real.exp_nonneg _), ← Real.exp_add, hb, mul_one]
      congr 2
    simp only [hp, mul_assoc]
    rw [← Finset.mul_sum, hinv a ha t' ht']

end

/-! ### Totally and singly constrained tables -/

open scoped Nat

theorem tableWeight_pos {κ : Type} [Fintype κ] (t : κ → ℕ) (L : κ → ℝ) : 0 < Spec.tableWeight t L := by
  unfold Spec.tableWeight
  refine Finset.prod_pos fun c _ => ?_
  have := Nat.factorial_pos (t c)
  have := Real.exp_pos (L c)
  positivity

theorem condProb_sum {κ : Type} [Fintype κ] (S : Finset (κ → ℕ)) (L : κ → ℝ) (hS : S.Nonempty) : ∑ t ∈ S, Spec.condProb S t L = 1 := by
  unfold Spec.condProb
  rw [← Finset.sum_div]
  exact div_self (Finset.sum_pos (fun t _ => tableWeight_pos t L) hS).ne'

theorem condProb_nonneg {κ : Type} [Fintype κ] (S : Finset (κ → ℕ)) (L : κ → ℝ) (t : κ → ℕ) : 0 ≤ Spec.condProb S t L := by
  unfold Spec.condProb
  exact div_nonneg (tableWeight_pos t L).le (Finset.sum_nonneg fun t _ => (tableWeight_pos t L).le)

/-- A direct draw leaves invariant every law proportional to the one it draws from. -/
theorem direct_invariant {κ : Type} [Fintype κ] (S : Finset (κ → ℕ)) (L : κ → ℝ) (ll : (κ → ℕ) → ℝ) (c : ℝ)
    (h : ∀ t ∈ S, Real.exp (ll t) * c = Spec.condProb S t L) (t' : κ → ℕ) (ht' : t' ∈ S) :
    ∑ t ∈ S, ENNReal.ofReal (Real.exp (ll t)) * ENNReal.ofReal (Spec.condProb S t' L) = ENNReal.ofReal (Real.exp (ll t')) := by
  have hsum : (∑ t ∈ S, Real.exp (ll t)) * c = 1 := by
    rw [Finset.sum_mul, Finset.sum_congr rfl h, condProb_sum S L ⟨t', ht'⟩]
  rw [← Finset.sum_mul, ← ENNReal.ofReal_sum_of_nonneg fun t _ => (Real.exp_pos _).le,
    ← ENNReal.ofReal_mul (Finset.sum_nonneg fun t _ => (Real.exp_pos _).le), ← h t' ht']
  congr 1
  calc (∑ t ∈ S, Real.exp (ll t)) * (Real.exp (ll t') * c) = ((∑ t ∈ S, Real.exp (ll t)) * c) * Real.exp (ll t') := by ring
    _ = _ := by rw [hsum, one_mul]

theorem measurable_condProb {κ : Type} [Fintype κ] (S : Finset (κ → ℕ)) (L : ℝ × ℝ → κ → ℝ) (hL : ∀ c, Measurable fun a => L a c) (t : κ → ℕ) :
    Measurable fun a => ENNReal.ofReal (Spec.condProb S t (L a)) := by
  have hw : ∀ t : κ → ℕ, Measurable fun a => Spec.tableWeight t (L a) := by
    intro t
    unfold Spec.tableWeight
    exact Finset.measurable_fun_prod _ fun c _ => (((hL c).exp).pow_const _).div_const _
  unfold Spec.condProb
  exact ((hw t).div (Finset.measurable_fun_sum _ fun t _ => hw t)).ennreal_ofReal

variable {I J : Type} [Fintype I] [Fintype J] [DecidableEq I] [DecidableEq J]

/-- **C158 (totally constrained tables).** With scaling factor one, no attraction steps, a table likelihood as returned for tables whose total is known
and tables drawn directly (their law is C97), any number of iterations leaves the joint posterior of parameters and table invariant. -/
theorem C158_total_partial [Nonempty I] [Nonempty J] (ph : Phys ℝ ι (I × J → ℕ)) (z : (Fin 2 → ℝ) → ℝ × ℝ) (x : ι → ℝ) (q : ℝ × ℝ → ℝ≥0∞) (M : ℕ)
    (logLam : (Fin 2 → ℝ) → (ι → ℝ) → I × J → ℝ) (total : ℕ) (S : Finset (I × J → ℕ)) (hS : ∀ t, t ∈ S ↔ ∑ c, t c = total)
    (hlik : ∀ th y t, ph.nlt th y t = -logMultinomial t (logLam th y)) (hb : ph.bmax = 1) (hq : Spec.SignFreeWalk q)
    (hL : ∀ t ∈ S, Measurable (jointLp ph z x t)) (hlam : ∀ c, Measurable fun a : ℝ × ℝ => logLam ![a.1, a.2] x c)
    (psi : ℝ × ℝ → (I × J → ℕ) → ℝ≥0∞) (hpsi : ∀ t, Measurable fun a => psi a t) (N : ℕ) :
    let weight := Spec.jointWeight (fun b => (z ![b.1, b.2]).1) (fun b => ph.pot ![b.1, b.2] x) (fun b t => ph.nlt ![b.1, b.2] x t) 1
    let draw := fun (th : Fin 2 → ℝ) (_ t' : I × J → ℕ) => ENNReal.ofReal (Spec.condProb S t' (logLam th x))
    ∑ t ∈ S, ∫⁻ a in Ico 0 2 ×ˢ Ico 0 2, weight a t * jointMean ph z q M S draw psi N (stateAt ph z x a t) =
      ∑ t ∈ S, ∫⁻ a in Ico 0 2 ×ˢ Ico 0 2, weight a t * psi a t := by
  intro weight draw
  refine C158_invariant_partial ph z x q M S draw psi hb hq hL (fun t t' => measurable_condProb S _ hlam t') hpsi ?_ N
  intro a _ t' ht'
  simp only [hlik, neg_neg]
  refine direct_invariant S (logLam ![a.1, a.2] x) (fun t => logMultinomial t (logLam ![a.1, a.2] x)) (total ! : ℝ) ?_ t' ht'
  intro t ht
  have hN := (hS t).1 ht
  rw [← C80_multinomial t (logLam ![a.1, a.2] x) S (fun t'' => by rw [hS, hN]), hN]

/-- **C158 (tables with known row sums).** The same for the product multinomial likelihood and tables drawn row by row. -/
theorem C158_rows_partial [Nonempty J] (ph : Phys ℝ ι (I × J → ℕ)) (z : (Fin 2 → ℝ) → ℝ × ℝ) (x : ι → ℝ) (q : ℝ × ℝ → ℝ≥0∞) (M : ℕ)
    (logLam : (Fin 2 → ℝ) → (ι → ℝ) → I × J → ℝ) (row : I → ℕ) (S : Finset (I × J → ℕ)) (hS : ∀ t, t ∈ S ↔ ∀ i, ∑ j, t (i, j) = row i)
    (hlik : ∀ th y t, ph.nlt th y t = -logProductMultinomial t (logLam th y)) (hb : ph.bmax = 1) (hq : Spec.SignFreeWalk q)
    (hL : ∀ t ∈ S, Measurable (jointLp ph z x t)) (hlam : ∀ c, Measurable fun a : ℝ × ℝ => logLam ![a.1, a.2] x c)
    (psi : ℝ × ℝ → (I × J → ℕ) → ℝ≥0∞) (hpsi : ∀ t, Measurable fun a => psi a t) (N : ℕ) :
    let weight := Spec.jointWeight (fun b => (z ![b.1, b.2]).1) (fun b => ph.pot ![b.1, b.2] x) (fun b t => ph.nlt ![b.1, b.2] x t) 1
    let draw := fun (th : Fin 2 → ℝ) (_ t' : I × J → ℕ) => ENNReal.ofReal (Spec.condProb S t' (logLam th x))
    ∑ t ∈ S, ∫⁻ a in Ico 0 2 ×ˢ Ico 0 2, weight a t * jointMean ph z q M S draw psi N (stateAt ph z x a t) =
      ∑ t ∈ S, ∫⁻ a in Ico 0 2 ×ˢ Ico 0 2, weight a t * psi a t := by
  intro weight draw
  refine C158_invariant_partial ph z x q M S draw psi hb hq hL (fun t t' => measurable_condProb S _ hlam t') hpsi ?_ N
  intro a _ t' ht'
  simp only [hlik, neg_neg]
  refine direct_invariant S (logLam ![a.1, a.2] x) (fun t => logProductMultinomial t (logLam ![a.1, a.2] x)) (∏ i, ((row i)! : ℝ)) ?_ t' ht'
  intro t ht
  have hN := (hS t).1 ht
  rw [← C80_product_multinomial t (logLam ![a.1, a.2] x) S (fun t'' => by rw [hS]; simp only [hN])]
  simp only [hN]

/-! ### A scaling factor other than one -/

/-- One origin, two destinations at costs zero and one, attractions one, a flat potential, one trip, scaling factor two. -/
noncomputable def twoCosts (th : Fin 2 → ℝ) (_ : Unit → ℝ) (c : Unit × Bool) : ℝ := if c.2 then 0 else -th 1

noncomputable def twoPhys : Phys ℝ Unit (Unit × Bool → ℕ) where
  bmax := 2
  pot := fun _ _ => 0
  grad := fun _ _ => 0
  nlt := fun th x t => -logMultinomial t (twoCosts th x)
  nltJac := fun _ _ _ => 0
  obs := fun _ => 0
  noiseVar := 1

/-- The trip goes to the near destination. -/
def tripNear : Unit × Bool → ℕ := fun c => if c.2 then 1 else 0

def tripFar : Unit × Bool → ℕ := fun c => if c.2 then 0 else 1

theorem trips_mem (t : Unit × Bool → ℕ) : t ∈ ({tripNear, tripFar} : Finset (Unit × Bool → ℕ)) ↔ ∑ c, t c = 1 := by
  have hsum : ∀ t : Unit × Bool → ℕ, ∑ c, t c = t ((), true) + t ((), false) := by
    intro t
    rw [Fintype.sum_prod_type]
    simp
  rw [hsum, Finset.mem_insert, Finset.mem_singleton]
  constructor
  · rintro (rfl | rfl) <;> rfl
  · intro h
    rcases Nat.eq_zero_or_pos (t ((), true)) with h0 | h0
    · right
      funext ⟨_, b⟩
      cases b
      · change t ((), false) = 1; omega
      · exact h0
    · left
      funext ⟨_, b⟩
      cases b
      · change t ((), false) = 0; omega
      · change t ((), true) = 1; omega

theorem near_prob (th : Fin 2 → ℝ) (x : Unit → ℝ) : Spec.condProb {tripNear, tripFar} tripNear (twoCosts th x) = 1 / (1 + Real.exp (-th 1)) := by
  have hne : tripNear ≠ tripFar := by
    intro h
    have := congrFun h ((), true)
    simp [tripNear, tripFar] at this
  have hw : ∀ t : Unit × Bool → ℕ, Spec.tableWeight t (twoCosts th x) =
      Real.exp 0 ^ t ((), true) / (t ((), true))! * (Real.exp (-th 1) ^ t ((), false) / (t ((), false))!) := by
    intro t
    unfold Spec.tableWeight
    rw [Fintype.prod_prod_type]
    simp only [Finset.univ_unique, Finset.prod_singleton, Fintype.prod_bool, twoCosts]
    rfl
  unfold Spec.condProb
  rw [Finset.sum_pair hne, hw, hw]
  simp [tripNear, tripFar]

theorem trips_weight (th : Fin 2 → ℝ) (x : Unit → ℝ) (t : Unit × Bool → ℕ) (ht : t ∈ ({tripNear, tripFar} : Finset (Unit × Bool → ℕ))) :
    Real.exp (logMultinomial t (twoCosts th x)) = Spec.condProb {tripNear, tripFar} t (twoCosts th x) := by
  have h1 := (trips_mem t).1 ht
  rw [← C80_multinomial t (twoCosts th x) {tripNear, tripFar} (fun t' => by rw [trips_mem, h1]), h1]
  simp

theorem measurable_twoCosts (b : ℝ) (x : Unit → ℝ) (c : Unit × Bool) : Measurable fun a : ℝ × ℝ => twoCosts ![a.1, a.2 * b] x c := by
  unfold twoCosts
  split
  · exact measurable_const
  · simp only [Matrix.cons_val_one, Matrix.cons_val_fin_one]
    fun_prop

theorem measurable_twoLp (x : Unit → ℝ) (t : Unit × Bool → ℕ) : Measurable (jointLp twoPhys (fun _ => (0, 1)) x t) := by
  have h := measurable_twoCosts 2 x
  unfold jointLp twoPhys logMultinomial
  simp only
  refine (measurable_const.sub measurable_const).sub (Measurable.neg ((Finset.measurable_fun_sum _ fun c _ => ?_).sub_const _))
  exact ((h c).sub (Finset.measurable_fun_sum _ fun d _ => (h d).exp).log).const_mul _

/-- The hypotheses of `C158_total_partial` are met: one trip between two destinations, scaling factor one. -/
example : ∃ (ph : Phys ℝ Unit (Unit × Bool → ℕ)) (S : Finset (Unit × Bool → ℕ)) (q : ℝ × ℝ → ℝ≥0∞), ph.bmax = 1 ∧
    (∀ t, t ∈ S ↔ ∑ c, t c = 1) ∧ S.card = 2 ∧ (∀ th y t, ph.nlt th y t = -logMultinomial t (twoCosts th y)) ∧ Spec.SignFreeWalk q ∧
    (∀ c, Measurable fun a : ℝ × ℝ => twoCosts ![a.1, a.2] (fun _ => 0) c) ∧ ∀ t ∈ S, Measurable (jointLp ph (fun _ => (0, 1)) (fun _ => 0) t) := by
  obtain ⟨q, hq, hq1, hq2, hq3⟩ := exists_signFree
  refine ⟨{ twoPhys with bmax := 1 }, {tripNear, tripFar}, q, rfl, trips_mem, ?_, fun _ _ _ => rfl, ⟨hq, hq1, hq2, hq3⟩, ?_, ?_⟩
  · rfl
  · intro c
    simpa using measurable_twoCosts 1 (fun _ => 0) c
  · intro t _
    have h := measurable_twoCosts 1 (fun _ => 0)
    unfold jointLp twoPhys logMultinomial
    simp only
    refine (measurable_const.sub measurable_const).sub (Measurable.neg ((Finset.measurable_fun_sum _ fun c _ => ?_).sub_const _))
    exact ((h c).sub (Finset.measurable_fun_sum _ fun d _ => (h d).exp).log).const_mul _

/-- Parameters where the test looks. -/
def betaStrip : Set (ℝ × ℝ) := Ico (0 : ℝ) 2 ×ˢ Ico (1 : ℝ) (3 / 2)

/-- **C158 is false** when beta is scaled by a factor other than one, for every number of parameter steps, even for totally constrained tables drawn
directly: the table is drawn at the unscaled parameters. -/
theorem C158_scaling_false (M : ℕ) : ¬ ∀ (ph : Phys ℝ Unit (Unit × Bool → ℕ)) (z : (Fin 2 → ℝ) → ℝ × ℝ) (x : Unit → ℝ) (q : ℝ × ℝ → ℝ≥0∞)
    (logLam : (Fin 2 → ℝ) → (Unit → ℝ) → Unit × Bool → ℝ) (total : ℕ) (S : Finset (Unit × Bool → ℕ)) (psi : ℝ × ℝ → (Unit × Bool → ℕ) → ℝ≥0∞),
    (∀ t, t ∈ S ↔ ∑ c, t c = total) → (∀ th y t, ph.nlt th y t = -logMultinomial t (logLam th y)) → Spec.SignFreeWalk q →
    (∀ t ∈ S, Measurable (jointLp ph z x t)) → (∀ c, Measurable fun a : ℝ × ℝ => logLam ![a.1, a.2] x c) → (∀ t, Measurable fun a => psi a t) →
    let weight := Spec.jointWeight (fun b => (z ![b.1, b.2]).1) (fun b => ph.pot ![b.1, b.2] x) (fun b t => ph.nlt ![b.1, b.2] x t) ph.bmax
    let draw := fun (th : Fin 2 → ℝ) (_ t' : Unit × Bool → ℕ) => ENNReal.ofReal (Spec.condProb S t' (logLam th x))
    ∑ t ∈ S, ∫⁻ a in Ico 0 2 ×ˢ Ico 0 2, weight a t * jointMean ph z q M S draw psi 1 (stateAt ph z x a t) =
      ∑ t ∈ S, ∫⁻ a in Ico 0 2 ×ˢ Ico 0 2, weight a t * psi a t := by
  intro h
  classical
  obtain ⟨q, hq, hq1, hq2, hq3⟩ := exists_signFree
  have hw : Spec.SignFreeWalk q := ⟨hq, hq1, hq2, hq3⟩
  have hne : tripNear ≠ tripFar := by
    intro h
    have := congrFun h ((), true)
    simp [tripNear, tripFar] at this
  have hstrip : MeasurableSet betaStrip := measurableSet_Ico.prod measurableSet_Ico
  let psi : ℝ × ℝ → (Unit × Bool → ℕ) → ℝ≥0∞ := fun a t => if t = tripNear then betaStrip.indicator 1 a else 0
  have hpsi : ∀ t, Measurable fun a => psi a t := by
    intro t
    by_cases ht : t = tripNear
    · simp only [psi, ht, if_true]; exact measurable_one.indicator hstrip
    · simp only [psi, ht, if_false]; exact measurable_const
  have hlam : ∀ c, Measurable fun a : ℝ × ℝ => twoCosts ![a.1, a.2] (fun _ => 0) c := by
    intro c
    simpa using measurable_twoCosts 1 (fun _ => 0) c
  have h1 := h twoPhys (fun _ => (0, 1)) (fun _ => 0) q twoCosts 1 {tripNear, tripFar} psi trips_mem (fun _ _ _ => rfl) hw
    (fun t _ => measurable_twoLp _ t) hlam hpsi
  have h2 := C158_one_iteration twoPhys (fun _ => (0, 1)) (fun _ => 0) q M {tripNear, tripFar}
    (fun th _ t' => ENNReal.ofReal (Spec.condProb {tripNear, tripFar} t' (twoCosts th fun _ => 0))) psi hw
    (fun t _ => measurable_twoLp _ t) (fun t t' => measurable_condProb _ _ hlam t') hpsi
  simp only at h1 h2
  rw [h2] at h1
  clear h2
  have hwt : ∀ (a : ℝ × ℝ) (t : Unit × Bool → ℕ), t ∈ ({tripNear, tripFar} : Finset (Unit × Bool → ℕ)) →
      Spec.jointWeight (fun _ => (0 : ℝ)) (fun b => twoPhys.pot ![b.1, b.2] fun _ => 0) (fun b t => twoPhys.nlt ![b.1, b.2] (fun _ => 0) t) twoPhys.bmax a t =
        ENNReal.ofReal (Spec.condProb {tripNear, tripFar} t (twoCosts ![a.1, a.2 * 2] fun _ => 0)) := by
    intro a t ht
    rw [← trips_weight _ _ t ht]
    unfold Spec.jointWeight twoPhys
    simp
  rw [Finset.sum_pair hne, Finset.sum_pair hne] at h1
  simp only [psi, if_true, hne.symm, if_false, mul_zero, lintegral_zero, add_zero] at h1
  have hsum : ∀ a : ℝ × ℝ, (∑ t ∈ ({tripNear, tripFar} : Finset (Unit × Bool → ℕ)),
      Spec.jointWeight (fun _ => (0 : ℝ)) (fun b => twoPhys.pot ![b.1, b.2] fun _ => 0) (fun b t => twoPhys.nlt ![b.1, b.2] (fun _ => 0) t) twoPhys.bmax a t *
        ENNReal.ofReal (Spec.condProb {tripNear, tripFar} tripNear (twoCosts ![a.1, a.2] fun _ => 0))) = ENNReal.ofReal (1 / (1 + Real.exp (-a.2))) := by
    intro a
    rw [← Finset.sum_mul, Finset.sum_congr rfl (hwt a), ← ENNReal.ofReal_sum_of_nonneg fun t _ => condProb_nonneg _ _ t,
      condProb_sum _ _ ⟨tripNear, by simp⟩, ENNReal.ofReal_one, one_mul, near_prob]
    simp
  have hnear : ∀ a : ℝ × ℝ, Spec.jointWeight (fun _ => (0 : ℝ)) (fun b => twoPhys.pot ![b.1, b.2] fun _ => 0)
      (fun b t => twoPhys.nlt ![b.1, b.2] (fun _ => 0) t) twoPhys.bmax a tripNear = ENNReal.ofReal (1 / (1 + Real.exp (-(a.2 * 2)))) := by
    intro a
    rw [hwt a tripNear (by simp), near_prob]
    simp
  simp only [hsum, hnear] at h1
  have hK : ∫⁻ a in (Ico 0 2 ×ˢ Ico 0 2 : Set (ℝ × ℝ)), betaStrip.indicator (1 : ℝ × ℝ → ℝ≥0∞) a = 1 := by
    rw [lintegral_indicator_one hstrip, Measure.restrict_apply hstrip, inter_eq_left.2, betaStrip, Measure.volume_eq_prod, Measure.prod_prod,
      Real.volume_Ico, Real.volume_Ico]
    · rw [← ENNReal.ofReal_mul (by norm_num)]; norm_num
    · intro a ha
      exact ⟨ha.1, by linarith [ha.2.1], by linarith [ha.2.2]⟩
  have hind : Measurable (betaStrip.indicator (1 : ℝ × ℝ → ℝ≥0∞)) := measurable_one.indicator hstrip
  have hl : ∫⁻ a in (Ico 0 2 ×ˢ Ico 0 2 : Set (ℝ × ℝ)), ENNReal.ofReal (1 / (1 + Real.exp (-a.2))) * betaStrip.indicator 1 a ≤
      ENNReal.ofReal (1 / (1 + Real.exp (-(3 / 2)))) := by
    calc _ ≤ ∫⁻ a in (Ico 0 2 ×ˢ Ico 0 2 : Set (ℝ × ℝ)), ENNReal.ofReal (1 / (1 + Real.exp (-(3 / 2)))) * betaStrip.indicator 1 a := by
          refine lintegral_mono fun a => ?_
          by_cases ha : a ∈ betaStrip
          · refine mul_le_mul_left (ENNReal.ofReal_le_ofReal ?_) _
            refine one_div_le_one_div_of_le (by positivity) ?_
            have : Real.exp (-(3 / 2)) ≤ Real.exp (-a.2) := Real.exp_le_exp.2 (by linarith [ha.2.2])
            linarith
          · simp only [indicator_of_notMem ha, mul_zero, le_refl]
      _ = _ := by rw [lintegral_const_mul _ hind, hK, mul_one]
  have hr : ENNReal.ofReal (1 / (1 + Real.exp (-2))) ≤
      ∫⁻ a in (Ico 0 2 ×ˢ Ico 0 2 : Set (ℝ × ℝ)), ENNReal.ofReal (1 / (1 + Real.exp (-(a.2 * 2)))) * betaStrip.indicator 1 a := by
    calc _ = ∫⁻ a in (Ico 0 2 ×ˢ Ico 0 2 : Set (ℝ × ℝ)), ENNReal.ofReal (1 / (1 + Real.exp (-2))) * betaStrip.indicator 1 a := by
          rw [lintegral_const_mul _ hind, hK, mul_one]
      _ ≤ _ := by
          refine lintegral_mono fun a => ?_
          by_cases ha : a ∈ betaStrip
          · refine mul_le_mul_left (ENNReal.ofReal_le_ofReal ?_) _
            refine one_div_le_one_div_of_le (by positivity) ?_
            have : Real.exp (-(a.2 * 2)) ≤ Real.exp (-2) := Real.exp_le_exp.2 (by linarith [ha.2.1])
            linarith
          · simp only [indicator_of_notMem ha, mul_zero, le_refl]
  have hlt : ENNReal.ofReal (1 / (1 + Real.exp (-(3 / 2)))) < ENNReal.ofReal (1 / (1 + Real.exp (-2))) := by
    rw [ENNReal.ofReal_lt_ofReal_iff (by positivity)]
    refine one_div_lt_one_div_of_lt (by positivity) ?_
    have : Real.exp (-2) < Real.exp (-(3 / 2)) := Real.exp_lt_exp.2 (by norm_num)
    linarith
  exact absurd (hr.trans (h1.symm.le.trans hl)) (not_le.2 hlt)

end GeNSIT
