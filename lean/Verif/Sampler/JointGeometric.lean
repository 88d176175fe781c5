import Verif.Sampler.Geometric
import Verif.Sampler.Joint

/-!
# C199: joint sampling of parameters and tables converges

The joint sampler of `Joint.lean` (`JointTableSIM_MCMC.run`, `gensit/experiments.py:1676-1790`) with tables drawn directly
(`gensit/contingency_table/ContingencyTable_MCMC.py:754-775` with `direct_sampling_proposal_2way_table`), attractions held fixed and scaling factor one.
-/

set_option linter.unusedSectionVars false
set_option linter.unusedSimpArgs false

open MeasureTheory Set
open scoped ENNReal Nat

namespace GeNSIT

section

variable {q : ℝ × ℝ → ℝ≥0∞} (hq : Measurable q) (hq1 : ∫⁻ w, q w = 1)

/-- One update brings all means close to a value that does not depend on the log posterior. -/
theorem oneStep_near (hq : Measurable q) (hq1 : ∫⁻ w, q w = 1) {L : ℝ × ℝ → ℝ} (hL : Measurable L) {B c : ℝ} (hB : ∀ a ∈ box, |L a| ≤ B)
    (hc : ∀ w : ℝ × ℝ, |w.1| < 2 → |w.2| < 2 → ENNReal.ofReal c ≤ q w)
    {g : ℝ × ℝ → ℝ≥0∞} (hg : Measurable g) {l r : ℝ≥0∞} (hr : r ≠ ⊤) (h : ∀ a ∈ box, l ≤ g a ∧ g a ≤ l + r) :
    ∀ a ∈ box, l + minor B c * (∫⁻ b in box, (g b - l)) ≤ oneStep L q g a ∧
      oneStep L q g a ≤ l + minor B c * (∫⁻ b in box, (g b - l)) + (1 - minor B c * 4) * r := by
  set e := minor B c with he
  have he4 : e * 4 ≤ 1 := minor_le hL hq hq1 hB hc
  have m1 : Measurable fun b => g b - l := hg.sub measurable_const
  have m2 : Measurable fun b => r - (g b - l) := measurable_const.sub m1
  have s1 : ∀ b ∈ box, g b = l + (g b - l) := fun b hb => (add_tsub_cancel_of_le (h b hb).1).symm
  have s2 : ∀ b ∈ box, (g b - l) + (r - (g b - l)) = r := fun b hb =>
    add_tsub_cancel_of_le (tsub_le_iff_left.2 (h b hb).2)
  have hIJ : (∫⁻ b in box, (g b - l)) + ∫⁻ b in box, (r - (g b - l)) = 4 * r := by
    rw [← lintegral_add_left m1, setLIntegral_congr_fun (g := fun _ => r) measurableSet_box s2, setLIntegral_const,
      volume_box, mul_comm]
  set I := ∫⁻ b in box, (g b - l) with hI
  set J := ∫⁻ b in box, (r - (g b - l)) with hJ
  intro a ha
  have d1 : oneStep L q g a = l + oneStep L q (fun b => g b - l) a := by
    rw [oneStep_congr s1 ha, oneStep_add hL hq measurable_const, oneStep_const hq hq1]
  have d2 : oneStep L q (fun b => g b - l) a + oneStep L q (fun b => r - (g b - l)) a = r := by
    rw [← oneStep_add hL hq m1, oneStep_congr s2 ha, oneStep_const hq hq1]
  have b1 : e * I ≤ oneStep L q (fun b => g b - l) a := oneStep_lower hL hq hB hc m1 ha
  have b2 : e * J ≤ oneStep L q (fun b => r - (g b - l)) a := oneStep_lower hL hq hB hc m2 ha
  constructor
  · rw [d1]; gcongr
  · rw [d1, add_assoc]
    refine add_le_add le_rfl ?_
    have hY : oneStep L q (fun b => r - (g b - l)) a ≠ ⊤ := ne_top_of_le_ne_top hr (le_add_self.trans_eq d2)
    rw [← ENNReal.add_le_add_iff_right hY, d2]
    have : r = (e * I + (1 - e * 4) * r) + e * J := by
      calc r = (e * 4 + (1 - e * 4)) * r := by rw [add_tsub_cancel_of_le he4, one_mul]
        _ = e * (I + J) + (1 - e * 4) * r := by rw [hIJ]; ring
        _ = _ := by ring
    calc r = (e * I + (1 - e * 4) * r) + e * J := this
      _ ≤ _ := by gcongr

theorem metroMean_step (L : ℝ × ℝ → ℝ) (g : ℝ × ℝ → ℝ≥0∞) (k : ℕ) : metroMean L q g (k + 1) = oneStep L q (metroMean L q g k) := rfl

theorem metroMean_inner (L : ℝ × ℝ → ℝ) (g : ℝ × ℝ → ℝ≥0∞) (k : ℕ) : metroMean L q g (k + 1) = metroMean L q (oneStep L q g) k := by
  induction k with
  | zero => rfl
  | succ k ih => rw [metroMean_step, ih, ← metroMean_step]

theorem metroMean_between (hq : Measurable q) (hq1 : ∫⁻ w, q w = 1) (L : ℝ × ℝ → ℝ) {g : ℝ × ℝ → ℝ≥0∞} {lo hi : ℝ≥0∞}
    (h : ∀ a ∈ box, lo ≤ g a ∧ g a ≤ hi) (k : ℕ) : ∀ a ∈ box, lo ≤ metroMean L q g k a ∧ metroMean L q g k a ≤ hi := by
  induction k with
  | zero => exact h
  | succ k ih =>
    intro a ha
    rw [metroMean_step]
    have h1 := oneStep_mono (L := L) (q := q) (fun b hb => (ih b hb).1) ha
    have h2 := oneStep_mono (L := L) (q := q) (fun b hb => (ih b hb).2) ha
    rw [oneStep_const hq hq1] at h1 h2
    exact ⟨h1, h2⟩

end

variable {ι T : Type} [Fintype ι]

section

variable (ph : Phys ℝ ι T) (z : (Fin 2 → ℝ) → ℝ × ℝ) (x : ι → ℝ) {q : ℝ × ℝ → ℝ≥0∞} (S : Finset T)
  (draw : (Fin 2 → ℝ) → T → ℝ≥0∞) (psi : ℝ × ℝ → T → ℝ≥0∞) {B c : ℝ} {M : ℕ}
  (hb : ph.bmax = 1) (hq : Spec.WalkDensity q) (hM : 0 < M) (hL : ∀ t ∈ S, Measurable (jointLp ph z x t))
  (hB : ∀ t ∈ S, ∀ a ∈ Spec.Square, |jointLp ph z x t a| ≤ B) (hc0 : 0 ≤ c)
  (hc : ∀ w : ℝ × ℝ, |w.1| < 2 → |w.2| < 2 → ENNReal.ofReal c ≤ q w)
  (hdraw : ∀ t, Measurable fun a : ℝ × ℝ => draw ![a.1, a.2] t) (hdraw1 : ∀ a ∈ Spec.Square, ∑ t ∈ S, draw ![a.1, a.2] t = 1)
  (hpsi : ∀ t, Measurable fun a => psi a t) (hpsi1 : ∀ a t, psi a t ≤ 1)

include hb hq hL hdraw hpsi in
theorem measurable_joint (N : ℕ) : ∀ t ∈ S, Measurable fun a => jointMean ph z q M S (fun th _ t' => draw th t') psi N (stateAt ph z x a t) := by
  induction N with
  | zero => intro t _; exact hpsi t
  | succ N ih =>
    intro t ht
    simp only [jointMean_stateAt ph z x q M S _ psi hb]
    exact measurable_metroMean _ (hL t ht) q hq.measurable _ (Finset.measurable_fun_sum _ fun t' ht' => (hdraw t').mul (ih t' ht')) M

include hb hq hM hL hB hc hdraw hdraw1 hpsi hpsi1 in
theorem joint_spread (N : ℕ) : ∃ l : ℝ≥0∞, l ≠ ⊤ ∧ ∀ t ∈ S, ∀ a ∈ box,
    l ≤ jointMean ph z q M S (fun th _ t' => draw th t') psi N (stateAt ph z x a t) ∧
      jointMean ph z q M S (fun th _ t' => draw th t') psi N (stateAt ph z x a t) ≤ l + (1 - minor B c * 4) ^ N := by
  induction N with
  | zero => exact ⟨0, by simp, fun t _ a _ => ⟨zero_le, by simpa [jointMean] using hpsi1 _ _⟩⟩
  | succ N ih =>
    obtain ⟨l, hl, h⟩ := ih
    have hr : (1 - minor B c * 4) ^ N ≠ ⊤ := ENNReal.pow_ne_top (ne_top_of_le_ne_top (by simp) tsub_le_self)
    set g : ℝ × ℝ → ℝ≥0∞ := fun b => ∑ t' ∈ S, draw ![b.1, b.2] t' * jointMean ph z q M S (fun th _ t' => draw th t') psi N (stateAt ph z x b t') with hg
    have hgm : Measurable g := Finset.measurable_fun_sum _ fun t' ht' => (hdraw t').mul (measurable_joint ph z x S draw psi hb hq hL hdraw hpsi N t' ht')
    have hgb : ∀ a ∈ box, l ≤ g a ∧ g a ≤ l + (1 - minor B c * 4) ^ N := by
      intro a ha
      constructor
      · calc l = ∑ t' ∈ S, draw ![a.1, a.2] t' * l := by rw [← Finset.sum_mul, hdraw1 a ha, one_mul]
          _ ≤ _ := Finset.sum_le_sum fun t' ht' => mul_le_mul_right (h t' ht' a ha).1 _
      · calc g a ≤ ∑ t' ∈ S, draw ![a.1, a.2] t' * (l + (1 - minor B c * 4) ^ N) := Finset.sum_le_sum fun t' ht' => mul_le_mul_right (h t' ht' a ha).2 _
          _ = _ := by rw [← Finset.sum_mul, hdraw1 a ha, one_mul]
    have hI : ∫⁻ b in box, (g b - l) ≠ ⊤ := by
      refine ne_top_of_le_ne_top (b := (1 - minor B c * 4) ^ N * 4) (ENNReal.mul_ne_top hr (by simp)) ?_
      calc ∫⁻ b in box, (g b - l) ≤ ∫⁻ _ in box, (1 - minor B c * 4) ^ N :=
            setLIntegral_mono measurable_const fun b hb' => tsub_le_iff_left.2 (hgb b hb').2
        _ = (1 - minor B c * 4) ^ N * 4 := by rw [setLIntegral_const, volume_box]
    refine ⟨l + minor B c * ∫⁻ b in box, (g b - l), ?_, fun t ht a ha => ?_⟩
    · exact ENNReal.add_ne_top.2 ⟨hl, ENNReal.mul_ne_top (ENNReal.mul_ne_top ENNReal.ofReal_ne_top ENNReal.ofReal_ne_top) hI⟩
    · obtain ⟨k, rfl⟩ : ∃ k, M = k + 1 := ⟨M - 1, by omega⟩
      rw [jointMean_stateAt ph z x q (k + 1) S _ psi hb]
      rw [metroMean_inner, pow_succ, mul_comm ((1 - minor B c * 4) ^ N)]
      exact metroMean_between hq.measurable hq.total _ (oneStep_near hq.measurable hq.total (hL t ht) (hB t ht) hc hgm hr hgb) k a ha

include hb hq hM hL hB hc0 hc hdraw hdraw1 hpsi hpsi1 in
/-- **C199.** Scaling factor one, no attraction steps, at least one parameter step per iteration, tables drawn directly from a law that depends on the
parameters only, log posterior bounded by `B` on the square for every table: after `N` iterations two runs from different parameters *and tables* give
means of `psi` (between 0 and 1) within `(1 - 4 c exp (-2B))^N` of each other. -/
theorem C199_forgets_partial (N : ℕ) {a b : ℝ × ℝ} (ha : a ∈ Spec.Square) (hb' : b ∈ Spec.Square) {t t' : T} (ht : t ∈ S) (ht' : t' ∈ S) :
    |(jointMean ph z q M S (fun th _ t' => draw th t') psi N (stateAt ph z x a t)).toReal -
        (jointMean ph z q M S (fun th _ t' => draw th t') psi N (stateAt ph z x b t')).toReal| ≤ (1 - 4 * c * Real.exp (-(2 * B))) ^ N := by
  obtain ⟨l, hl, h⟩ := joint_spread ph z x S draw psi hb hq hM hL hB hc hdraw hdraw1 hpsi hpsi1 N
  have hrn : (1 - minor B c * 4) ^ N ≠ ⊤ := ENNReal.pow_ne_top (ne_top_of_le_ne_top (by simp) tsub_le_self)
  have hlr : l + (1 - minor B c * 4) ^ N ≠ ⊤ := ENNReal.add_ne_top.2 ⟨hl, hrn⟩
  have tR : (l + (1 - minor B c * 4) ^ N).toReal = l.toReal + (1 - 4 * c * Real.exp (-(2 * B))) ^ N := by
    rw [ENNReal.toReal_add hl hrn, ENNReal.toReal_pow, rate_toReal (hL t ht) hq.measurable hq.total (hB t ht) hc0 hc]
  have k1 := ENNReal.toReal_mono (ne_top_of_le_ne_top hlr (h t ht a ha).2) (h t ht a ha).1
  have k2 := ENNReal.toReal_mono hlr (h t ht a ha).2
  have k3 := ENNReal.toReal_mono (ne_top_of_le_ne_top hlr (h t' ht' b hb').2) (h t' ht' b hb').1
  have k4 := ENNReal.toReal_mono hlr (h t' ht' b hb').2
  rw [tR] at k2 k4
  rw [abs_le]
  constructor <;> linarith

/-- The mean of `psi` under the joint posterior of parameters (on the square) and table (in `S`). -/
noncomputable def Spec.jointPosteriorMean (weight : ℝ × ℝ → T → ℝ≥0∞) (S : Finset T) (psi : ℝ × ℝ → T → ℝ≥0∞) : ℝ≥0∞ :=
  (∑ t ∈ S, ∫⁻ a in Spec.Square, weight a t * psi a t) / ∑ t ∈ S, ∫⁻ a in Spec.Square, weight a t

include hb hq hM hL hB hc0 hc hdraw hdraw1 hpsi hpsi1 in
/-- **C199.** If moreover the walk does not depend on the signs of its steps and drawing the table leaves the law of the table given the parameters
invariant, the means converge, at that rate, to the mean under the joint posterior of parameters and table. -/
theorem C199_converges_partial (h0 : ∀ w, q (-w.1, w.2) = q w) (h1 : ∀ w, q (w.1, -w.2) = q w)
    (hinv : ∀ a ∈ Spec.Square, ∀ t' ∈ S, ∑ t ∈ S, ENNReal.ofReal (Real.exp (-ph.nlt ![a.1, a.2] x t)) * draw ![a.1, a.2] t' =
      ENNReal.ofReal (Real.exp (-ph.nlt ![a.1, a.2] x t'))) (N : ℕ) {a : ℝ × ℝ} (ha : a ∈ Spec.Square) {t : T} (ht : t ∈ S) :
    |(jointMean ph z q M S (fun th _ t' => draw th t') psi N (stateAt ph z x a t)).toReal -
        (Spec.jointPosteriorMean (Spec.jointWeight (fun b => (z ![b.1, b.2]).1) (fun b => ph.pot ![b.1, b.2] x)
          (fun b t => ph.nlt ![b.1, b.2] x t) 1) S psi).toReal| ≤ (1 - 4 * c * Real.exp (-(2 * B))) ^ N := by
  obtain ⟨l, hl, h⟩ := joint_spread ph z x S draw psi hb hq hM hL hB hc hdraw hdraw1 hpsi hpsi1 N
  set G := fun (a : ℝ × ℝ) (t : T) => jointMean ph z q M S (fun th _ t' => draw th t') psi N (stateAt ph z x a t) with hG
  have hGm : ∀ t ∈ S, Measurable fun a => G a t := measurable_joint ph z x S draw psi hb hq hL hdraw hpsi N
  have hst := C158_invariant_partial ph z x q M S (fun th _ t' => draw th t') psi hb ⟨hq.measurable, hq.total, h0, h1⟩ hL (fun _ t' => hdraw t') hpsi hinv N
  simp only at hst
  have hwt : ∀ a t, Spec.jointWeight (fun b => (z ![b.1, b.2]).1) (fun b => ph.pot ![b.1, b.2] x) (fun b t => ph.nlt ![b.1, b.2] x t) 1 a t =
      Spec.posterior (jointLp ph z x t) a := by
    intro a t
    rw [← jointWeight_eq, hb]
  set W := Spec.jointWeight (fun b => (z ![b.1, b.2]).1) (fun b => ph.pot ![b.1, b.2] x) (fun b t => ph.nlt ![b.1, b.2] x t) 1 with hW
  have hWm : ∀ t ∈ S, Measurable fun a => W a t := by
    intro t ht
    have := hL t ht
    simp only [hwt]
    unfold Spec.posterior
    fun_prop
  set Z := ∑ t ∈ S, ∫⁻ a in Spec.Square, W a t with hZ
  have hvol : volume Spec.Square = 4 := volume_box
  have hmsq : MeasurableSet Spec.Square := measurableSet_box
  have hWlo : ∀ t ∈ S, ENNReal.ofReal (Real.exp (-B)) * 4 ≤ ∫⁻ a in Spec.Square, W a t := by
    intro t ht
    rw [← hvol, ← setLIntegral_const]
    refine setLIntegral_mono (hWm t ht) fun b hb' => ?_
    rw [hwt]
    exact ENNReal.ofReal_le_ofReal (Real.exp_le_exp.2 (by have := abs_le.1 (hB t ht b hb'); linarith))
  have hWhi : ∀ t ∈ S, ∫⁻ a in Spec.Square, W a t ≤ ENNReal.ofReal (Real.exp B) * 4 := by
    intro t ht
    rw [← hvol, ← setLIntegral_const]
    refine setLIntegral_mono measurable_const fun b hb' => ?_
    rw [hwt]
    exact ENNReal.ofReal_le_ofReal (Real.exp_le_exp.2 (by have := abs_le.1 (hB t ht b hb'); linarith))
  have hZ0 : Z ≠ 0 := by
    intro hz
    have h1 := (hWlo t ht).trans (Finset.single_le_sum (f := fun t => ∫⁻ a in Spec.Square, W a t) (fun _ _ => zero_le) ht)
    rw [← hZ, hz] at h1
    have hp : 0 < ENNReal.ofReal (Real.exp (-B)) * 4 := ENNReal.mul_pos (by simpa using Real.exp_pos (-B)) (by simp)
    exact absurd h1 (not_le.2 hp)
  have hZt : Z ≠ ⊤ := by
    rw [hZ, ENNReal.sum_ne_top]
    exact fun t ht => ne_top_of_le_ne_top (ENNReal.mul_ne_top ENNReal.ofReal_ne_top (by simp)) (hWhi t ht)
  have hMl : l ≤ Spec.jointPosteriorMean W S psi := by
    unfold Spec.jointPosteriorMean
    rw [ENNReal.le_div_iff_mul_le (Or.inl hZ0) (Or.inl hZt)]
    refine le_trans ?_ hst.le
    rw [hZ, Finset.mul_sum]
    refine Finset.sum_le_sum fun t ht => ?_
    rw [mul_comm, ← lintegral_mul_const _ (hWm t ht)]
    exact setLIntegral_mono ((hWm t ht).mul (hGm t ht)) fun b hb' => mul_le_mul_right (h t ht b hb').1 _
  have hMu : Spec.jointPosteriorMean W S psi ≤ l + (1 - minor B c * 4) ^ N := by
    unfold Spec.jointPosteriorMean
    rw [ENNReal.div_le_iff hZ0 hZt]
    refine le_trans hst.ge ?_
    rw [hZ, Finset.mul_sum]
    refine Finset.sum_le_sum fun t ht => ?_
    rw [mul_comm, ← lintegral_mul_const _ (hWm t ht)]
    exact setLIntegral_mono ((hWm t ht).mul measurable_const) fun b hb' => mul_le_mul_right (h t ht b hb').2 _
  have hrn : (1 - minor B c * 4) ^ N ≠ ⊤ := ENNReal.pow_ne_top (ne_top_of_le_ne_top (by simp) tsub_le_self)
  have hlr : l + (1 - minor B c * 4) ^ N ≠ ⊤ := ENNReal.add_ne_top.2 ⟨hl, hrn⟩
  have tR : (l + (1 - minor B c * 4) ^ N).toReal = l.toReal + (1 - 4 * c * Real.exp (-(2 * B))) ^ N := by
    rw [ENNReal.toReal_add hl hrn, ENNReal.toReal_pow, rate_toReal (hL t ht) hq.measurable hq.total (hB t ht) hc0 hc]
  have k1 := ENNReal.toReal_mono (ne_top_of_le_ne_top hlr (h t ht a ha).2) (h t ht a ha).1
  have k2 := ENNReal.toReal_mono hlr (h t ht a ha).2
  have k3 := ENNReal.toReal_mono (ne_top_of_le_ne_top hlr hMu) hMl
  have k4 := ENNReal.toReal_mono hlr hMu
  rw [tR] at k2 k4
  rw [abs_le]
  constructor <;> linarith

end

/-! ### Tables drawn from their law given the parameters -/

variable {I J : Type} [Fintype I] [Fintype J] [DecidableEq I] [DecidableEq J]

/-- **C199 (totally constrained tables).** Scaling factor one, no attraction steps, at least one parameter step per iteration, a table likelihood as
returned for tables whose total is known and tables drawn directly (their law is C97): from any parameters on the square and any table with that total,
the means after `N` iterations are within `(1 - 4 c exp (-2B))^N` of the mean under the joint posterior of parameters and table. -/
theorem C199_total_partial [Nonempty I] [Nonempty J] (ph : Phys ℝ ι (I × J → ℕ)) (z : (Fin 2 → ℝ) → ℝ × ℝ) (x : ι → ℝ) {q : ℝ × ℝ → ℝ≥0∞} {M : ℕ}
    (logLam : (Fin 2 → ℝ) → (ι → ℝ) → I × J → ℝ) (total : ℕ) (S : Finset (I × J → ℕ)) (hS : ∀ t, t ∈ S ↔ ∑ c, t c = total)
    (hlik : ∀ th y t, ph.nlt th y t = -logMultinomial t (logLam th y)) (hb : ph.bmax = 1) (hq : Spec.SignFreeWalk q) (hM : 0 < M)
    (hL : ∀ t ∈ S, Measurable (jointLp ph z x t)) (hlam : ∀ c, Measurable fun a : ℝ × ℝ => logLam ![a.1, a.2] x c) {B c : ℝ}
    (hB : ∀ t ∈ S, ∀ a ∈ Spec.Square, |jointLp ph z x t a| ≤ B) (hc0 : 0 ≤ c) (hc : ∀ w : ℝ × ℝ, |w.1| < 2 → |w.2| < 2 → ENNReal.ofReal c ≤ q w)
    (psi : ℝ × ℝ → (I × J → ℕ) → ℝ≥0∞) (hpsi : ∀ t, Measurable fun a => psi a t) (hpsi1 : ∀ a t, psi a t ≤ 1) (N : ℕ)
    {a : ℝ × ℝ} (ha : a ∈ Spec.Square) {t : I × J → ℕ} (ht : ∑ c, t c = total) :
    let weight := Spec.jointWeight (fun b => (z ![b.1, b.2]).1) (fun b => ph.pot ![b.1, b.2] x) (fun b t => ph.nlt ![b.1, b.2] x t) 1
    let draw := fun (th : Fin 2 → ℝ) (_ t' : I × J → ℕ) => ENNReal.ofReal (Spec.condProb S t' (logLam th x))
    |(jointMean ph z q M S draw psi N (stateAt ph z x a t)).toReal - (Spec.jointPosteriorMean weight S psi).toReal| ≤
      (1 - 4 * c * Real.exp (-(2 * B))) ^ N := by
  intro weight draw
  have htS : t ∈ S := (hS t).2 ht
  refine C199_converges_partial ph z x S (fun th t' => ENNReal.ofReal (Spec.condProb S t' (logLam th x))) psi hb ⟨hq.meas, hq.mass⟩ hM hL hB hc0 hc
    (fun t' => measurable_condProb S _ hlam t') ?_ hpsi hpsi1 hq.sign0 hq.sign1 ?_ N ha htS
  · intro b _
    rw [← ENNReal.ofReal_sum_of_nonneg fun t' _ => condProb_nonneg S _ t', condProb_sum S _ ⟨t, htS⟩, ENNReal.ofReal_one]
  · intro b _ t' ht'
    simp only [hlik, neg_neg]
    refine direct_invariant S (logLam ![b.1, b.2] x) (fun t => logMultinomial t (logLam ![b.1, b.2] x)) (total ! : ℝ) ?_ t' ht'
    intro t ht
    have hN := (hS t).1 ht
    rw [← C80_multinomial t (logLam ![b.1, b.2] x) S (fun t'' => by rw [hS, hN]), hN]

/-- **C199 (tables with known row sums).** The same for the product multinomial likelihood and tables drawn row by row. -/
theorem C199_rows_partial [Nonempty J] (ph : Phys ℝ ι (I × J → ℕ)) (z : (Fin 2 → ℝ) → ℝ × ℝ) (x : ι → ℝ) {q : ℝ × ℝ → ℝ≥0∞} {M : ℕ}
    (logLam : (Fin 2 → ℝ) → (ι → ℝ) → I × J → ℝ) (row : I → ℕ) (S : Finset (I × J → ℕ)) (hS : ∀ t, t ∈ S ↔ ∀ i, ∑ j, t (i, j) = row i)
    (hlik : ∀ th y t, ph.nlt th y t = -logProductMultinomial t (logLam th y)) (hb : ph.bmax = 1) (hq : Spec.SignFreeWalk q) (hM : 0 < M)
    (hL : ∀ t ∈ S, Measurable (jointLp ph z x t)) (hlam : ∀ c, Measurable fun a : ℝ × ℝ => logLam ![a.1, a.2] x c) {B c : ℝ}
    (hB : ∀ t ∈ S, ∀ a ∈ Spec.Square, |jointLp ph z x t a| ≤ B) (hc0 : 0 ≤ c) (hc : ∀ w : ℝ × ℝ, |w.1| < 2 → |w.2| < 2 → ENNReal.ofReal c ≤ q w)
    (psi : ℝ × ℝ → (I × J → ℕ) → ℝ≥0∞) (hpsi : ∀ t, Measurable fun a => psi a t) (hpsi1 : ∀ a t, psi a t ≤ 1) (N : ℕ)
    {a : ℝ × ℝ} (ha : a ∈ Spec.Square) {t : I × J → ℕ} (ht : ∀ i, ∑ j, t (i, j) = row i) :
    let weight := Spec.jointWeight (fun b => (z ![b.1, b.2]).1) (fun b => ph.pot ![b.1, b.2] x) (fun b t => ph.nlt ![b.1, b.2] x t) 1
    let draw := fun (th : Fin 2 → ℝ) (_ t' : I × J → ℕ) => ENNReal.ofReal (Spec.condProb S t' (logLam th x))
    |(jointMean ph z q M S draw psi N (stateAt ph z x a t)).toReal - (Spec.jointPosteriorMean weight S psi).toReal| ≤
      (1 - 4 * c * Real.exp (-(2 * B))) ^ N := by
  intro weight draw
  have htS : t ∈ S := (hS t).2 ht
  refine C199_converges_partial ph z x S (fun th t' => ENNReal.ofReal (Spec.condProb S t' (logLam th x))) psi hb ⟨hq.meas, hq.mass⟩ hM hL hB hc0 hc
    (fun t' => measurable_condProb S _ hlam t') ?_ hpsi hpsi1 hq.sign0 hq.sign1 ?_ N ha htS
  · intro b _
    rw [← ENNReal.ofReal_sum_of_nonneg fun t' _ => condProb_nonneg S _ t', condProb_sum S _ ⟨t, htS⟩, ENNReal.ofReal_one]
  · intro b _ t' ht'
    simp only [hlik, neg_neg]
    refine direct_invariant S (logLam ![b.1, b.2] x) (fun t => logProductMultinomial t (logLam ![b.1, b.2] x)) (∏ i, ((row i)! : ℝ)) ?_ t' ht'
    intro t ht
    have hN := (hS t).1 ht
    rw [← C80_product_multinomial t (logLam ![b.1, b.2] x) S (fun t'' => by rw [hS]; simp only [hN])]
    simp only [hN]

theorem twoCosts_bound (a : ℝ × ℝ) (ha : a ∈ Spec.Square) (t : Unit × Bool → ℕ) (ht : t ∈ ({tripNear, tripFar} : Finset (Unit × Bool → ℕ))) :
    |jointLp { twoPhys with bmax := 1 } (fun _ => (0, 1)) (fun _ => 0) t a| ≤ 3 := by
  have h1 := ha.2
  simp only [mem_Ico] at h1
  have he0 := Real.exp_pos (-a.2)
  have he1 : Real.exp (-a.2) ≤ 1 := Real.exp_le_one_iff.2 (by linarith)
  have hl0 : 0 ≤ Real.log (1 + Real.exp (-a.2)) := Real.log_nonneg (by linarith)
  have hl1 : Real.log (1 + Real.exp (-a.2)) ≤ 1 := by
    have := Real.log_le_sub_one_of_pos (show 0 < 1 + Real.exp (-a.2) by linarith)
    linarith
  have key : ∀ t : Unit × Bool → ℕ, jointLp { twoPhys with bmax := 1 } (fun _ => (0, 1)) (fun _ => 0) t a =
      (t ((), true) : ℝ) * (0 - Real.log (1 + Real.exp (-a.2))) + (t ((), false) : ℝ) * (-a.2 - Real.log (1 + Real.exp (-a.2))) -
        (Real.log ((t ((), true))! : ℝ) + Real.log ((t ((), false))! : ℝ)) := by
    intro t
    simp [jointLp, twoPhys, logMultinomial, tableLogFact, Fintype.sum_prod_type, twoCosts]
  rw [key, abs_le]
  rcases Finset.mem_insert.1 ht with rfl | ht
  · simp [tripNear]
    constructor <;> linarith
  · rw [Finset.mem_singleton.1 ht]
    simp [tripFar]
    constructor <;> linarith

/-- `C199_total_partial` at work: one trip between two destinations at costs zero and one, scaling factor one, the code's normal walk with any positive
variances. The mean of every measurable test between 0 and 1 tends to its mean under the joint posterior, from every start and with every positive
number of parameter steps per iteration. -/
example (v v' : NNReal) (hv : v ≠ 0) (hv' : v' ≠ 0) (M : ℕ) (hM : 0 < M) (psi : ℝ × ℝ → (Unit × Bool → ℕ) → ℝ≥0∞)
    (hpsi : ∀ t, Measurable fun a => psi a t) (hpsi1 : ∀ a t, psi a t ≤ 1) {a : ℝ × ℝ} (ha : a ∈ Spec.Square) {t : Unit × Bool → ℕ} (ht : ∑ c, t c = 1) :
    let ph : Phys ℝ Unit (Unit × Bool → ℕ) := { twoPhys with bmax := 1 }
    let S : Finset (Unit × Bool → ℕ) := {tripNear, tripFar}
    Filter.Tendsto (fun N => (jointMean ph (fun _ => (0, 1)) (Spec.normalWalk v v') M S
        (fun th _ t' => ENNReal.ofReal (Spec.condProb S t' (twoCosts th fun _ => 0))) psi N (stateAt ph (fun _ => (0, 1)) (fun _ => 0) a t)).toReal)
      Filter.atTop (nhds (Spec.jointPosteriorMean (Spec.jointWeight (fun _ => 0) (fun _ => 0)
        (fun b t => -logMultinomial t (twoCosts ![b.1, b.2] fun _ => 0)) 1) S psi).toReal) := by
  intro ph S
  have hlam : ∀ c, Measurable fun a : ℝ × ℝ => twoCosts ![a.1, a.2] (fun _ => 0) c := by
    intro c
    simpa using measurable_twoCosts 1 (fun _ => 0) c
  have hL : ∀ t ∈ S, Measurable (jointLp ph (fun _ => (0, 1)) (fun _ => 0) t) := by
    intro t _
    have h := measurable_twoCosts 1 (fun _ => 0)
    unfold jointLp
    simp only [ph, twoPhys, logMultinomial]
    refine (measurable_const.sub measurable_const).sub (Measurable.neg ((Finset.measurable_fun_sum _ fun c _ => ?_).sub_const _))
    exact ((h c).sub (Finset.measurable_fun_sum _ fun d _ => (h d).exp).log).const_mul _
  have hw := normalWalk_density hv hv'
  have hsf : Spec.SignFreeWalk (Spec.normalWalk v v') := ⟨hw.measurable, hw.total, fun w => by simp [Spec.normalWalk], fun w => by simp [Spec.normalWalk]⟩
  have hB : ∀ t ∈ S, ∀ a ∈ Spec.Square, |jointLp ph (fun _ => (0, 1)) (fun _ => 0) t a| ≤ 3 := fun t ht a ha => twoCosts_bound a ha t ht
  have hcp := normalLow_pos hv hv'
  have h4 : 0 ≤ 1 - 4 * Spec.normalLow v v' * Real.exp (-(2 * 3)) :=
    rate_nonneg (hL tripNear (by simp [S])) hw.measurable hw.total (hB tripNear (by simp [S])) hcp.le (normalLow_le hv hv')
  have hlt : 1 - 4 * Spec.normalLow v v' * Real.exp (-(2 * 3)) < 1 := by
    have := mul_pos hcp (Real.exp_pos (-(2 * 3)))
    linarith
  rw [tendsto_iff_dist_tendsto_zero]
  refine squeeze_zero (fun _ => dist_nonneg) (fun N => ?_) (tendsto_pow_atTop_nhds_zero_of_lt_one h4 hlt)
  rw [Real.dist_eq]
  exact C199_total_partial ph (fun _ => (0, 1)) (fun _ => 0) twoCosts 1 S trips_mem (fun _ _ _ => rfl) rfl hsf hM hL hlam hB hcp.le (normalLow_le hv hv')
    psi hpsi hpsi1 N ha ht

/-! ### A scaling factor other than one -/

/-- On a strip of betas, the near destination is strictly likelier at the doubled beta. -/
theorem strip_gap : ∫⁻ a in Spec.Square, ENNReal.ofReal (1 / (1 + Real.exp (-a.2))) * betaStrip.indicator (1 : ℝ × ℝ → ℝ≥0∞) a <
    ∫⁻ a in Spec.Square, ENNReal.ofReal (1 / (1 + Real.exp (-(a.2 * 2)))) * betaStrip.indicator (1 : ℝ × ℝ → ℝ≥0∞) a := by
  have hstrip : MeasurableSet betaStrip := measurableSet_Ico.prod measurableSet_Ico
  have hK : ∫⁻ a in Spec.Square, betaStrip.indicator (1 : ℝ × ℝ → ℝ≥0∞) a = 1 := by
    rw [lintegral_indicator_one hstrip, Measure.restrict_apply hstrip, inter_eq_left.2, betaStrip, Measure.volume_eq_prod, Measure.prod_prod,
      Real.volume_Ico, Real.volume_Ico]
    · rw [← ENNReal.ofReal_mul (by norm_num)]; norm_num
    · intro a ha
      exact ⟨ha.1, by linarith [ha.2.1], by linarith [ha.2.2]⟩
  have hind : Measurable (betaStrip.indicator (1 : ℝ × ℝ → ℝ≥0∞)) := measurable_one.indicator hstrip
  have hl : ∫⁻ a in Spec.Square, ENNReal.ofReal (1 / (1 + Real.exp (-a.2))) * betaStrip.indicator 1 a ≤
      ENNReal.ofReal (1 / (1 + Real.exp (-(3 / 2)))) := by
    calc _ ≤ ∫⁻ a in Spec.Square, ENNReal.ofReal (1 / (1 + Real.exp (-(3 / 2)))) * betaStrip.indicator 1 a := by
          refine lintegral_mono fun a => ?_
          by_cases ha : a ∈ betaStrip
          · refine mul_le_mul_left (ENNReal.ofReal_le_ofReal ?_) _
            refine one_div_le_one_div_of_le (by positivity) ?_
            have : Real.exp (-(3 / 2)) ≤ Real.exp (-a.2) := Real.exp_le_exp.2 (by linarith [ha.2.2])
            linarith
          · simp only [indicator_of_notMem ha, mul_zero, le_refl]
      _ = _ := by rw [lintegral_const_mul _ hind, hK, mul_one]
  have hr : ENNReal.ofReal (1 / (1 + Real.exp (-2))) ≤
      ∫⁻ a in Spec.Square, ENNReal.ofReal (1 / (1 + Real.exp (-(a.2 * 2)))) * betaStrip.indicator 1 a := by
    calc _ = ∫⁻ a in Spec.Square, ENNReal.ofReal (1 / (1 + Real.exp (-2))) * betaStrip.indicator 1 a := by
          rw [lintegral_const_mul _ hind, hK, mul_one]
      _ ≤ _ := by
          refine lintegral_mono fun a => ?_
          by_cases ha : a ∈ betaStrip
          · refine mul_le_mul_left (ENNReal.ofReal_le_ofReal ?_) _
            refine one_div_le_one_div_of_le (by positivity) ?_
            have : Real.exp (-(a.2 * 2)) ≤ Real.exp (-2) := Real.exp_le_exp.2 (by linarith [ha.2.1])
            linarith
          · simp only [indicator_of_notMem ha, mul_zero, le_refl]
  refine lt_of_le_of_lt hl (lt_of_lt_of_le ?_ hr)
  rw [ENNReal.ofReal_lt_ofReal_iff (by positivity)]
  refine one_div_lt_one_div_of_lt (by positivity) ?_
  have : Real.exp (-2) < Real.exp (-(3 / 2)) := Real.exp_lt_exp.2 (by norm_num)
  linarith

/-- Two quantities whose means over the drawn table agree have the same mean after every positive number of iterations, from every state. -/
theorem jointMean_drawn (ph : Phys ℝ ι T) (z : (Fin 2 → ℝ) → ℝ × ℝ) (q : ℝ × ℝ → ℝ≥0∞) (M : ℕ) (S : Finset T) (draw : (Fin 2 → ℝ) → T → ℝ≥0∞)
    (psi psi' : ℝ × ℝ → T → ℝ≥0∞) (h : ∀ th : Fin 2 → ℝ, ∑ t ∈ S, draw th t * psi (th 0, th 1) t = ∑ t ∈ S, draw th t * psi' (th 0, th 1) t) (N : ℕ) :
    ∀ s, jointMean ph z q M S (fun th _ t' => draw th t') psi (N + 1) s = jointMean ph z q M S (fun th _ t' => draw th t') psi' (N + 1) s := by
  induction N with
  | zero =>
    intro s
    have e : (fun s' : JointState ℝ ι T => ∑ t ∈ S, draw s'.theta t * (jointStep ph s' (.tables t)).elim 0 (jointMean ph z q M S (fun th _ t' => draw th t') psi 0)) =
        fun s' => ∑ t ∈ S, draw s'.theta t * (jointStep ph s' (.tables t)).elim 0 (jointMean ph z q M S (fun th _ t' => draw th t') psi' 0) := by
      funext s'
      simpa [jointStep, jointMean] using h s'.theta
    exact congrArg (fun F => thetaMean ph z q F M s) e
  | succ N ih =>
    intro s
    have e : jointMean ph z q M S (fun th _ t' => draw th t') psi (N + 1) = jointMean ph z q M S (fun th _ t' => draw th t') psi' (N + 1) := funext ih
    simp only [jointMean] at e ⊢
    rw [e]

theorem jointPosteriorMean_le (w : ℝ × ℝ → T → ℝ≥0∞) (S : Finset T) {psi : ℝ × ℝ → T → ℝ≥0∞} (h : ∀ a t, psi a t ≤ 1) : Spec.jointPosteriorMean w S psi ≤ 1 := by
  unfold Spec.jointPosteriorMean
  refine ENNReal.div_le_of_le_mul ?_
  rw [one_mul]
  exact Finset.sum_le_sum fun t _ => lintegral_mono fun b => mul_le_of_le_one_right' (h b t)

/-- **C199 is false** when beta is scaled by a factor other than one, for every number of parameter steps: even for totally constrained
tables drawn directly, with a bounded log posterior and a positive walk density, the law of parameters and table does not approach the joint posterior. -/
theorem C199_false (M : ℕ) : ¬ ∀ (ph : Phys ℝ Unit (Unit × Bool → ℕ)) (z : (Fin 2 → ℝ) → ℝ × ℝ) (x : Unit → ℝ) (q : ℝ × ℝ → ℝ≥0∞)
    (logLam : (Fin 2 → ℝ) → (Unit → ℝ) → Unit × Bool → ℝ) (total : ℕ) (S : Finset (Unit × Bool → ℕ)) (psi : ℝ × ℝ → (Unit × Bool → ℕ) → ℝ≥0∞) (B c : ℝ)
    (a : ℝ × ℝ) (t : Unit × Bool → ℕ),
    (∀ t, t ∈ S ↔ ∑ c, t c = total) → (∀ th y t, ph.nlt th y t = -logMultinomial t (logLam th y)) → Spec.SignFreeWalk q →
    (∀ t ∈ S, Measurable (jointLp ph z x t)) → (∀ c, Measurable fun a : ℝ × ℝ => logLam ![a.1, a.2] x c) →
    (∀ t ∈ S, ∀ a ∈ Spec.Square, |jointLp ph z x t a| ≤ B) → 0 < c → (∀ w : ℝ × ℝ, |w.1| < 2 → |w.2| < 2 → ENNReal.ofReal c ≤ q w) →
    (∀ t, Measurable fun a => psi a t) → (∀ a t, psi a t ≤ 1) → a ∈ Spec.Square → ∑ c, t c = total →
    let weight := Spec.jointWeight (fun b => (z ![b.1, b.2]).1) (fun b => ph.pot ![b.1, b.2] x) (fun b t => ph.nlt ![b.1, b.2] x t) ph.bmax
    let draw := fun (th : Fin 2 → ℝ) (_ t' : Unit × Bool → ℕ) => ENNReal.ofReal (Spec.condProb S t' (logLam th x))
    Filter.Tendsto (fun N => (jointMean ph z q M S draw psi N (stateAt ph z x a t)).toReal) Filter.atTop
      (nhds (Spec.jointPosteriorMean weight S psi).toReal) := by
  intro h
  classical
  have hw := normalWalk_density (v := 1) (v' := 1) one_ne_zero one_ne_zero
  have hsf : Spec.SignFreeWalk (Spec.normalWalk 1 1) := ⟨hw.measurable, hw.total, fun w => by simp [Spec.normalWalk], fun w => by simp [Spec.normalWalk]⟩
  have hne : tripNear ≠ tripFar := by
    intro h
    have := congrFun h ((), true)
    simp [tripNear, tripFar] at this
  have hstrip : MeasurableSet betaStrip := measurableSet_Ico.prod measurableSet_Ico
  have hind : Measurable (betaStrip.indicator (1 : ℝ × ℝ → ℝ≥0∞)) := measurable_one.indicator hstrip
  have hind1 : ∀ a, betaStrip.indicator (1 : ℝ × ℝ → ℝ≥0∞) a ≤ 1 := fun a => indicator_le_self' (f := (1 : ℝ × ℝ → ℝ≥0∞)) (by simp) a
  have hlam : ∀ c, Measurable fun a : ℝ × ℝ => twoCosts ![a.1, a.2] (fun _ => 0) c := by
    intro c
    simpa using measurable_twoCosts 1 (fun _ => 0) c
  have hpr : ∀ b : ℝ, 1 / (1 + Real.exp b) ≤ 1 := fun b => by
    rw [div_le_one (by positivity)]
    linarith [Real.exp_pos b]
  let psi : ℝ × ℝ → (Unit × Bool → ℕ) → ℝ≥0∞ := fun a t => if t = tripNear then betaStrip.indicator 1 a else 0
  let psi' : ℝ × ℝ → (Unit × Bool → ℕ) → ℝ≥0∞ := fun a _ => ENNReal.ofReal (1 / (1 + Real.exp (-a.2))) * betaStrip.indicator 1 a
  have hpsi : ∀ t, Measurable fun a => psi a t := by
    intro t
    by_cases ht : t = tripNear
    · simp only [psi, ht, if_true]; exact hind
    · simp only [psi, ht, if_false]; exact measurable_const
  have hpsi1 : ∀ a t, psi a t ≤ 1 := by
    intro a t
    simp only [psi]
    split
    · exact hind1 a
    · exact zero_le
  have hpsi' : ∀ t, Measurable fun a => psi' a t := by
    intro t
    have : Measurable fun a : ℝ × ℝ => ENNReal.ofReal (1 / (1 + Real.exp (-a.2))) := by fun_prop
    exact this.mul hind
  have hpsi1' : ∀ a t, psi' a t ≤ 1 := by
    intro a t
    refine mul_le_one' ?_ (hind1 a)
    rw [← ENNReal.ofReal_one]
    exact ENNReal.ofReal_le_ofReal (hpr _)
  have hB : ∀ t ∈ ({tripNear, tripFar} : Finset (Unit × Bool → ℕ)), ∀ a ∈ Spec.Square, |jointLp twoPhys (fun _ => (0, 1)) (fun _ => 0) t a| ≤ 5 := by
    intro t ht a ha
    have h1 := ha.2
    simp only [mem_Ico] at h1
    have he0 := Real.exp_pos (-(a.2 * 2))
    have he1 : Real.exp (-(a.2 * 2)) ≤ 1 := Real.exp_le_one_iff.2 (by linarith)
    have hl0 : 0 ≤ Real.log (1 + Real.exp (-(a.2 * 2))) := Real.log_nonneg (by linarith)
    have hl1 : Real.log (1 + Real.exp (-(a.2 * 2))) ≤ 1 := by
      have := Real.log_le_sub_one_of_pos (show 0 < 1 + Real.exp (-(a.2 * 2)) by linarith)
      linarith
    have key : ∀ t : Unit × Bool → ℕ, jointLp twoPhys (fun _ => (0, 1)) (fun _ => 0) t a =
        (t ((), true) : ℝ) * (0 - Real.log (1 + Real.exp (-(a.2 * 2)))) + (t ((), false) : ℝ) * (-(a.2 * 2) - Real.log (1 + Real.exp (-(a.2 * 2)))) -
          (Real.log ((t ((), true))! : ℝ) + Real.log ((t ((), false))! : ℝ)) := by
      intro t
      simp [jointLp, twoPhys, logMultinomial, tableLogFact, Fintype.sum_prod_type, twoCosts]
    rw [key, abs_le]
    rcases Finset.mem_insert.1 ht with rfl | ht
    · simp [tripNear]
      constructor <;> linarith
    · rw [Finset.mem_singleton.1 ht]
      simp [tripFar]
      constructor <;> linarith
  have l1 := h twoPhys (fun _ => (0, 1)) (fun _ => 0) (Spec.normalWalk 1 1) twoCosts 1 {tripNear, tripFar} psi 5 _ (1, 1) tripFar trips_mem (fun _ _ _ => rfl) hsf
    (fun t _ => measurable_twoLp _ t) hlam hB (normalLow_pos one_ne_zero one_ne_zero) (normalLow_le one_ne_zero one_ne_zero) hpsi hpsi1
    (by simp [Spec.Square]) ((trips_mem tripFar).1 (by simp))
  have l2 := h twoPhys (fun _ => (0, 1)) (fun _ => 0) (Spec.normalWalk 1 1) twoCosts 1 {tripNear, tripFar} psi' 5 _ (1, 1) tripFar trips_mem (fun _ _ _ => rfl) hsf
    (fun t _ => measurable_twoLp _ t) hlam hB (normalLow_pos one_ne_zero one_ne_zero) (normalLow_le one_ne_zero one_ne_zero) hpsi' hpsi1'
    (by simp [Spec.Square]) ((trips_mem tripFar).1 (by simp))
  simp only at l1 l2
  have hsame := jointMean_drawn twoPhys (fun _ => (0, 1)) (Spec.normalWalk 1 1) M {tripNear, tripFar}
    (fun th t' => ENNReal.ofReal (Spec.condProb {tripNear, tripFar} t' (twoCosts th fun _ => 0))) psi psi' (by
      intro th
      rw [← Finset.sum_mul (f := fun t' => ENNReal.ofReal (Spec.condProb {tripNear, tripFar} t' (twoCosts th fun _ => 0))),
        ← ENNReal.ofReal_sum_of_nonneg fun t _ => condProb_nonneg _ _ t, condProb_sum _ _ ⟨tripNear, by simp⟩, ENNReal.ofReal_one, one_mul,
        Finset.sum_pair hne, near_prob]
      simp [psi, hne.symm])
  have l1' := (Filter.tendsto_add_atTop_iff_nat 1).2 l1
  have l2' := (Filter.tendsto_add_atTop_iff_nat 1).2 l2
  simp only [hsame] at l1'
  have heq := tendsto_nhds_unique l1' l2'
  have hwt : ∀ (a : ℝ × ℝ) (t : Unit × Bool → ℕ), t ∈ ({tripNear, tripFar} : Finset (Unit × Bool → ℕ)) →
      Spec.jointWeight (fun _ => (0 : ℝ)) (fun b => twoPhys.pot ![b.1, b.2] fun _ => 0) (fun b t => twoPhys.nlt ![b.1, b.2] (fun _ => 0) t) twoPhys.bmax a t =
        ENNReal.ofReal (Spec.condProb {tripNear, tripFar} t (twoCosts ![a.1, a.2 * 2] fun _ => 0)) := by
    intro a t ht
    rw [← trips_weight _ _ t ht]
    unfold Spec.jointWeight twoPhys
    simp
  have hone : ∀ a : ℝ × ℝ, ∑ t ∈ ({tripNear, tripFar} : Finset (Unit × Bool → ℕ)),
      Spec.jointWeight (fun _ => (0 : ℝ)) (fun b => twoPhys.pot ![b.1, b.2] fun _ => 0) (fun b t => twoPhys.nlt ![b.1, b.2] (fun _ => 0) t) twoPhys.bmax a t = 1 := by
    intro a
    rw [Finset.sum_congr rfl (hwt a), ← ENNReal.ofReal_sum_of_nonneg fun t _ => condProb_nonneg _ _ t,
      condProb_sum _ _ ⟨tripNear, by simp⟩, ENNReal.ofReal_one]
  have hnear : ∀ a : ℝ × ℝ, Spec.jointWeight (fun _ => (0 : ℝ)) (fun b => twoPhys.pot ![b.1, b.2] fun _ => 0)
      (fun b t => twoPhys.nlt ![b.1, b.2] (fun _ => 0) t) twoPhys.bmax a tripNear = ENNReal.ofReal (1 / (1 + Real.exp (-(a.2 * 2)))) := by
    intro a
    rw [hwt a tripNear (by simp), near_prob]
    simp
  have hWm : ∀ t ∈ ({tripNear, tripFar} : Finset (Unit × Bool → ℕ)), Measurable fun a : ℝ × ℝ => Spec.jointWeight (fun _ => (0 : ℝ))
      (fun b => twoPhys.pot ![b.1, b.2] fun _ => 0) (fun b t => twoPhys.nlt ![b.1, b.2] (fun _ => 0) t) twoPhys.bmax a t := by
    intro t ht
    simp only [hwt _ t ht]
    exact measurable_condProb {tripNear, tripFar} _ (fun c => measurable_twoCosts 2 _ c) t
  set W := Spec.jointWeight (fun _ => (0 : ℝ)) (fun b => twoPhys.pot ![b.1, b.2] fun _ => 0) (fun b t => twoPhys.nlt ![b.1, b.2] (fun _ => 0) t) twoPhys.bmax
    with hW
  have hZ : ∑ t ∈ ({tripNear, tripFar} : Finset (Unit × Bool → ℕ)), ∫⁻ a in Spec.Square, W a t = 4 := by
    rw [← lintegral_finsetSum' _ fun t ht => (hWm t ht).aemeasurable]
    simp only [hone, lintegral_one, Measure.restrict_apply_univ]
    exact volume_box
  have hA : ∑ t ∈ ({tripNear, tripFar} : Finset (Unit × Bool → ℕ)), ∫⁻ a in Spec.Square, W a t * psi a t =
      ∫⁻ a in Spec.Square, ENNReal.ofReal (1 / (1 + Real.exp (-(a.2 * 2)))) * betaStrip.indicator (1 : ℝ × ℝ → ℝ≥0∞) a := by
    rw [Finset.sum_pair hne]
    simp only [psi, if_true, hne.symm, if_false, mul_zero, lintegral_zero, add_zero, hnear]
  have hA' : ∑ t ∈ ({tripNear, tripFar} : Finset (Unit × Bool → ℕ)), ∫⁻ a in Spec.Square, W a t * psi' a t =
      ∫⁻ a in Spec.Square, ENNReal.ofReal (1 / (1 + Real.exp (-a.2))) * betaStrip.indicator (1 : ℝ × ℝ → ℝ≥0∞) a := by
    have mWp : ∀ t ∈ ({tripNear, tripFar} : Finset (Unit × Bool → ℕ)), AEMeasurable (fun a => W a t * psi' a t) (volume.restrict Spec.Square) :=
      fun t ht => ((hWm t ht).mul (hpsi' t)).aemeasurable
    rw [← lintegral_finsetSum' _ mWp]
    refine lintegral_congr fun a => ?_
    simp only [psi']
    rw [← Finset.sum_mul, hone, one_mul]
  have hm1 := jointPosteriorMean_le W {tripNear, tripFar} hpsi1
  have hm2 := jointPosteriorMean_le W {tripNear, tripFar} hpsi1'
  have hE := (ENNReal.toReal_eq_toReal_iff' (ne_top_of_le_ne_top (by simp) hm1) (ne_top_of_le_ne_top (by simp) hm2)).1 heq
  unfold Spec.jointPosteriorMean at hE
  rw [hA, hA', hZ] at hE
  have hcancel := congrArg (fun y => y * 4) hE
  simp only [ENNReal.div_mul_cancel (show (4 : ℝ≥0∞) ≠ 0 by simp) (show (4 : ℝ≥0∞) ≠ ⊤ by simp)] at hcancel
  exact strip_gap.ne' hcancel

end GeNSIT
