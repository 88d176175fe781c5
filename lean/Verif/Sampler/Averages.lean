import Verif.Sampler.GeometricModel

/-!
# C197: averages over the chain of parameters approach their posterior means

The averages over stored samples (`gensit/outputs.py`, means of `alpha`, `beta`) of the chain of `theta_gibbs_step`
(`gensit/learning_models/HarrisWilsonModel_MCMC.py:605-690`), the destination sizes held fixed.
-/

set_option linter.unusedSectionVars false
set_option linter.unusedVariables false
set_option linter.unusedSimpArgs false

open MeasureTheory Set
open scoped ENNReal

namespace GeNSIT

/-- The chain together with the running total of `f` over the states it reaches. -/
def Spec.withTotal {S : Type} (step : S → ℝ × ℝ → ℝ → S) (f : S → ℝ) (st : S × ℝ) (w : ℝ × ℝ) (u : ℝ) : S × ℝ :=
  (step st.1 w u, st.2 + f (step st.1 w u))

theorem meanAfter_mono {S : Type} (step : S → ℝ × ℝ → ℝ → S) (q : ℝ × ℝ → ℝ≥0∞) {f g : S → ℝ≥0∞} (h : ∀ s, f s ≤ g s) :
    ∀ n s, Spec.meanAfter step q f n s ≤ Spec.meanAfter step q g n s
  | 0, s => h s
  | n + 1, s => by
    simp only [Spec.meanAfter]
    refine lintegral_mono fun w => mul_le_mul_right ?_ _
    exact lintegral_mono fun u => meanAfter_mono step q h n _

theorem meanAfter_const_mul {S : Type} (step : S → ℝ × ℝ → ℝ → S) (q : ℝ × ℝ → ℝ≥0∞) (f : S → ℝ≥0∞) {k : ℝ≥0∞} (hk : k ≠ ⊤) :
    ∀ n s, Spec.meanAfter step q (fun s => k * f s) n s = k * Spec.meanAfter step q f n s
  | 0, s => rfl
  | n + 1, s => by
    simp only [Spec.meanAfter]
    rw [← lintegral_const_mul' _ _ hk]
    refine lintegral_congr fun w => ?_
    rw [← mul_assoc, mul_comm k, mul_assoc, ← lintegral_const_mul' _ _ hk]
    congr 1
    exact lintegral_congr fun u => meanAfter_const_mul step q f hk n _

section
variable {L : ℝ × ℝ → ℝ} (hL : Measurable L) {q : ℝ × ℝ → ℝ≥0∞} (hq : Measurable q) (hq1 : ∫⁻ w, q w = 1)

theorem oneStep_const_mul (f : ℝ × ℝ → ℝ≥0∞) {k : ℝ≥0∞} (hk : k ≠ ⊤) (a : ℝ × ℝ) :
    oneStep L q (fun b => k * f b) a = k * oneStep L q f a :=
  meanAfter_const_mul (metroStep L) q f hk 1 a

include hL in
theorem measurable_metroStep (a w : ℝ × ℝ) : Measurable fun u => metroStep L a w u := by
  unfold metroStep
  by_cases hb : fold2 a w ∈ box
  · simp only [hb, true_and]
    exact Measurable.ite (measurableSet_lt Real.measurable_log measurable_const) measurable_const measurable_const
  · simp only [hb, false_and, if_false]
    exact measurable_const

include hL hq in
/-- Adding inside the mean of one update. -/
theorem twice_add (F : ℝ × ℝ → ℝ → ℝ≥0∞) {f : ℝ × ℝ → ℝ≥0∞} (hf : Measurable f) (a : ℝ × ℝ) :
    (∫⁻ w, q w * ∫⁻ u in Ioo (0 : ℝ) 1, F w u) + oneStep L q f a =
      ∫⁻ w, q w * ∫⁻ u in Ioo (0 : ℝ) 1, (F w u + f (metroStep L a w u)) := by
  have hr := measurable_reflect
  have mw : Measurable fun w => q w * ∫⁻ u in Ioo (0 : ℝ) 1, f (metroStep L a w u) := by
    have mA : Measurable fun w => metroAcc L a (fold2 a w) := (measurable_metroAcc hL).comp (measurable_const.prodMk measurable_id)
    have mf : Measurable fun w => fold2 a w := by unfold fold2; fun_prop
    simp only [lintegral_metroStep]
    fun_prop
  unfold oneStep
  rw [← lintegral_add_right _ mw]
  refine lintegral_congr fun w => ?_
  have hm : Measurable fun u => f (metroStep L a w u) := hf.comp (measurable_metroStep hL a w)
  rw [lintegral_add_right _ hm, mul_add]

variable (f : ℝ × ℝ → ℝ) (hf : Measurable f) (hf0 : ∀ a, 0 ≤ f a) (hf1 : ∀ a, f a ≤ 1)

/-- The mean total. -/
noncomputable def totalMean (L : ℝ × ℝ → ℝ) (q : ℝ × ℝ → ℝ≥0∞) (f : ℝ × ℝ → ℝ) : ℕ → ℝ × ℝ → ℝ≥0∞
  | 0, _ => 0
  | n + 1, a => oneStep L q (fun b => ENNReal.ofReal (f b) + totalMean L q f n b) a

/-- The mean of the squared total. -/
noncomputable def totalSquare (L : ℝ × ℝ → ℝ) (q : ℝ × ℝ → ℝ≥0∞) (f : ℝ × ℝ → ℝ) : ℕ → ℝ × ℝ → ℝ≥0∞
  | 0, _ => 0
  | n + 1, a => oneStep L q (fun b => ENNReal.ofReal (f b) ^ 2 + 2 * ENNReal.ofReal (f b) * totalMean L q f n b + totalSquare L q f n b) a

include hL hq hf in
theorem measurable_totalMean : ∀ n, Measurable (totalMean L q f n)
  | 0 => measurable_const
  | n + 1 => measurable_oneStep hL hq ((ENNReal.measurable_ofReal.comp hf).add (measurable_totalMean n))

include hL hq hf in
theorem measurable_totalSquare : ∀ n, Measurable (totalSquare L q f n)
  | 0 => measurable_const
  | n + 1 => by
    have h1 := measurable_totalMean hL hq f hf n
    have h2 := measurable_totalSquare n
    have h3 := ENNReal.measurable_ofReal.comp hf
    exact measurable_oneStep hL hq (((h3.pow_const 2).add ((h3.const_mul 2).mul h1)).add h2)

include hq hq1 hf1 in
theorem totalMean_le : ∀ n, ∀ a ∈ box, totalMean L q f n a ≤ n
  | 0, a, _ => by simp [totalMean]
  | n + 1, a, ha => by
    have h : oneStep L q (fun b => ENNReal.ofReal (f b) + totalMean L q f n b) a ≤ oneStep L q (fun _ => 1 + (n : ℝ≥0∞)) a := by
      refine oneStep_mono (fun b hb => ?_) ha
      refine add_le_add ?_ (totalMean_le n b hb)
      rw [← ENNReal.ofReal_one]
      exact ENNReal.ofReal_le_ofReal (hf1 b)
    rw [oneStep_const hq hq1] at h
    simp only [totalMean]
    refine h.trans ?_
    push_cast
    rw [add_comm]

include hq hq1 hf1 in
theorem totalSquare_le : ∀ n, ∀ a ∈ box, totalSquare L q f n a ≤ (n : ℝ≥0∞) ^ 2
  | 0, a, _ => by simp [totalSquare]
  | n + 1, a, ha => by
    have h : oneStep L q (fun b => ENNReal.ofReal (f b) ^ 2 + 2 * ENNReal.ofReal (f b) * totalMean L q f n b + totalSquare L q f n b) a ≤
        oneStep L q (fun _ => 1 ^ 2 + 2 * 1 * (n : ℝ≥0∞) + (n : ℝ≥0∞) ^ 2) a := by
      refine oneStep_mono (fun b hb => ?_) ha
      have h1 : ENNReal.ofReal (f b) ≤ 1 := by
        rw [← ENNReal.ofReal_one]
        exact ENNReal.ofReal_le_ofReal (hf1 b)
      have h2 := totalMean_le (L := L) hq hq1 f hf1 n b hb
      have h3 := totalSquare_le n b hb
      gcongr
    rw [oneStep_const hq hq1] at h
    simp only [totalSquare]
    refine h.trans (le_of_eq ?_)
    push_cast
    ring

include hL hq hq1 hf hf0 in
/-- The mean squared deviation of the total from `m`. -/
theorem deviation_eq (m : ℝ) (hm : 0 ≤ m) : ∀ (n : ℕ) (a : ℝ × ℝ) (t : ℝ), 0 ≤ t →
    Spec.meanAfter (Spec.withTotal (metroStep L) f) q (fun st => ENNReal.ofReal ((st.2 - m) ^ 2)) n (a, t) +
        2 * ENNReal.ofReal m * (ENNReal.ofReal t + totalMean L q f n a) =
      ENNReal.ofReal t ^ 2 + 2 * ENNReal.ofReal t * totalMean L q f n a + totalSquare L q f n a + ENNReal.ofReal m ^ 2
  | 0, a, t, ht => by
    simp only [Spec.meanAfter, totalMean, totalSquare, add_zero, mul_zero]
    rw [← ENNReal.ofReal_pow ht, ← ENNReal.ofReal_pow hm, ← ENNReal.ofReal_add (by positivity) (by positivity),
      show (2 : ℝ≥0∞) = ENNReal.ofReal 2 by simp, ← ENNReal.ofReal_mul (by norm_num), ← ENNReal.ofReal_mul (by positivity),
      ← ENNReal.ofReal_add (by positivity) (by positivity)]
    congr 1
    ring
  | n + 1, a, t, ht => by
    have mA := measurable_totalMean hL hq f hf n
    have mB := measurable_totalSquare hL hq f hf n
    have mf := ENNReal.measurable_ofReal.comp hf
    have mf' : Measurable fun b => ENNReal.ofReal (f b) := mf
    have ih := fun (b : ℝ × ℝ) => deviation_eq m hm n b (t + f b) (add_nonneg ht (hf0 b))
    have k1 : 2 * ENNReal.ofReal m * (ENNReal.ofReal t + totalMean L q f (n + 1) a) =
        oneStep L q (fun b => 2 * ENNReal.ofReal m * (ENNReal.ofReal (t + f b) + totalMean L q f n b)) a := by
      have e : (fun b => 2 * ENNReal.ofReal m * (ENNReal.ofReal (t + f b) + totalMean L q f n b)) =
          fun b => 2 * ENNReal.ofReal m * (ENNReal.ofReal t + (ENNReal.ofReal (f b) + totalMean L q f n b)) := by
        funext b; rw [ENNReal.ofReal_add ht (hf0 b), add_assoc]
      rw [e, oneStep_const_mul _ (ENNReal.mul_ne_top (by simp) ENNReal.ofReal_ne_top), oneStep_add hL hq measurable_const, oneStep_const hq hq1]
      rfl
    have k2 : ENNReal.ofReal t ^ 2 + 2 * ENNReal.ofReal t * totalMean L q f (n + 1) a + totalSquare L q f (n + 1) a + ENNReal.ofReal m ^ 2 =
        oneStep L q (fun b => ENNReal.ofReal (t + f b) ^ 2 + 2 * ENNReal.ofReal (t + f b) * totalMean L q f n b + totalSquare L q f n b +
          ENNReal.ofReal m ^ 2) a := by
      have e : (fun b => ENNReal.ofReal (t + f b) ^ 2 + 2 * ENNReal.ofReal (t + f b) * totalMean L q f n b + totalSquare L q f n b +
          ENNReal.ofReal m ^ 2) = fun b => (ENNReal.ofReal t ^ 2 + ENNReal.ofReal m ^ 2) +
            (2 * ENNReal.ofReal t * (ENNReal.ofReal (f b) + totalMean L q f n b) +
              (ENNReal.ofReal (f b) ^ 2 + 2 * ENNReal.ofReal (f b) * totalMean L q f n b + totalSquare L q f n b)) := by
        funext b; rw [ENNReal.ofReal_add ht (hf0 b)]; ring
      rw [e, oneStep_add hL hq measurable_const, oneStep_const hq hq1, oneStep_add hL hq (by fun_prop),
        oneStep_const_mul _ (ENNReal.mul_ne_top (by simp) ENNReal.ofReal_ne_top)]
      simp only [totalMean, totalSquare]
      ring
    rw [k1, k2]
    simp only [Spec.meanAfter, Spec.withTotal]
    rw [twice_add hL hq _ (by fun_prop)]
    unfold oneStep
    refine lintegral_congr fun w => ?_
    congr 1
    refine lintegral_congr fun u => ?_
    exact ih (metroStep L a w u)

include hL hq hf in
/-- The mean total is the sum of the means. -/
theorem totalMean_sum : ∀ (n : ℕ) (a : ℝ × ℝ), totalMean L q f n a =
    ∑ k ∈ Finset.range n, Spec.meanAfter (metroStep L) q (fun b => ENNReal.ofReal (f b)) (k + 1) a
  | 0, a => by simp [totalMean]
  | n + 1, a => by
    have mf : Measurable fun b => ENNReal.ofReal (f b) := ENNReal.measurable_ofReal.comp hf
    have hs : ∀ m, oneStep L q (fun b => ∑ k ∈ Finset.range m, Spec.meanAfter (metroStep L) q (fun b => ENNReal.ofReal (f b)) (k + 1) b) a =
        ∑ k ∈ Finset.range m, Spec.meanAfter (metroStep L) q (fun b => ENNReal.ofReal (f b)) (k + 1 + 1) a := by
      intro m
      induction m with
      | zero =>
        have : ∀ w : ℝ × ℝ, q w * ∫⁻ u in Ioo (0 : ℝ) 1, (0 : ℝ≥0∞) = 0 := by simp
        simp [oneStep]
      | succ m ih =>
        simp only [Finset.sum_range_succ]
        rw [oneStep_add hL hq (Finset.measurable_fun_sum _ fun k _ => measurable_meanAfter hL hq mf (k + 1)), ih]
        rfl
    simp only [totalMean]
    rw [oneStep_add hL hq mf]
    rw [show totalMean L q f n = _ from funext (totalMean_sum n), hs n, Finset.sum_range_succ' _ n, add_comm]
    rfl

variable {B c : ℝ} (hB : ∀ a ∈ box, |L a| ≤ B) (hc0 : 0 < c)
  (hc : ∀ w : ℝ × ℝ, |w.1| < 2 → |w.2| < 2 → ENNReal.ofReal c ≤ q w)
  (h0 : ∀ w, q (-w.1, w.2) = q w) (h1 : ∀ w, q (w.1, -w.2) = q w)

/-- The posterior mean of `f`. -/
noncomputable def boxMean (L : ℝ × ℝ → ℝ) (f : ℝ × ℝ → ℝ) : ℝ :=
  ((∫⁻ b in box, Spec.posterior L b * ENNReal.ofReal (f b)) / ∫⁻ b in box, Spec.posterior L b).toReal

include hL hq hq1 hf hf1 hB hc0 hc h0 h1 in
theorem totalMean_close (n : ℕ) {a : ℝ × ℝ} (ha : a ∈ box) :
    |(totalMean L q f n a).toReal - n * boxMean L f| ≤ 1 / (4 * c * Real.exp (-(2 * B))) := by
  set e := 4 * c * Real.exp (-(2 * B)) with he
  have hepos : 0 < e := mul_pos (by linarith) (Real.exp_pos _)
  have hr0 : 0 ≤ 1 - e := rate_nonneg hL hq hq1 hB hc0.le hc
  have mf : Measurable fun b => ENNReal.ofReal (f b) := ENNReal.measurable_ofReal.comp hf
  have hle := totalMean_le (L := L) hq hq1 f hf1 n a ha
  have hfin : ∀ k ∈ Finset.range n, Spec.meanAfter (metroStep L) q (fun b => ENNReal.ofReal (f b)) (k + 1) a ≠ ⊤ := by
    intro k hk
    refine ne_top_of_le_ne_top (ENNReal.natCast_ne_top n) (le_trans ?_ hle)
    rw [totalMean_sum hL hq f hf]
    exact Finset.single_le_sum (f := fun k => Spec.meanAfter (metroStep L) q (fun b => ENNReal.ofReal (f b)) (k + 1) a) (fun _ _ => zero_le) hk
  have hf1' : ∀ a ∈ box, ENNReal.ofReal (f a) ≤ 1 := by
    intro a _
    rw [← ENNReal.ofReal_one]
    exact ENNReal.ofReal_le_ofReal (hf1 a)
  have hone : ∀ k, |(Spec.meanAfter (metroStep L) q (fun b => ENNReal.ofReal (f b)) (k + 1) a).toReal - boxMean L f| ≤ (1 - e) ^ k := by
    intro k
    refine (metro_converges hL hq hq1 h0 h1 hB hc0.le hc mf hf1' (k + 1) ha).trans ?_
    rw [pow_succ]
    exact mul_le_of_le_one_right (pow_nonneg hr0 k) (by linarith)
  rw [totalMean_sum hL hq f hf, ENNReal.toReal_sum hfin]
  have hsum : (n : ℝ) * boxMean L f = ∑ _k ∈ Finset.range n, boxMean L f := by simp
  rw [hsum, ← Finset.sum_sub_distrib]
  refine (Finset.abs_sum_le_sum_abs _ _).trans ?_
  refine (Finset.sum_le_sum fun k _ => hone k).trans ?_
  rw [le_div_iff₀ hepos]
  have hg := mul_neg_geom_sum (1 - e) n
  have hp := pow_nonneg hr0 n
  have : (1 - (1 - e)) = e := by ring
  rw [this] at hg
  rw [mul_comm, hg]
  linarith

theorem real_of_extended {A B : ℝ≥0∞} (hA : A ≠ ⊤) (hB : B ≠ ⊤) {x y z : ℝ} (hx : 0 ≤ x) (hy : 0 ≤ y) (hz : 0 ≤ z) :
    B + ENNReal.ofReal x ≤ ENNReal.ofReal y + ENNReal.ofReal z * A ↔ B.toReal + x ≤ y + z * A.toReal := by
  have hzA : ENNReal.ofReal z * A ≠ ⊤ := ENNReal.mul_ne_top ENNReal.ofReal_ne_top hA
  rw [← ENNReal.toReal_le_toReal (ENNReal.add_ne_top.2 ⟨hB, ENNReal.ofReal_ne_top⟩) (ENNReal.add_ne_top.2 ⟨ENNReal.ofReal_ne_top, hzA⟩),
    ENNReal.toReal_add hB ENNReal.ofReal_ne_top, ENNReal.toReal_add ENNReal.ofReal_ne_top hzA, ENNReal.toReal_mul,
    ENNReal.toReal_ofReal hx, ENNReal.toReal_ofReal hy, ENNReal.toReal_ofReal hz]

include hL hq hq1 hf hf0 hf1 hB hc0 hc h0 h1 in
theorem totalSquare_close : ∀ (n : ℕ), ∀ a ∈ box,
    totalSquare L q f n a + ENNReal.ofReal ((n * boxMean L f) ^ 2) ≤
      ENNReal.ofReal (n * (1 + 2 * (1 / (4 * c * Real.exp (-(2 * B)))))) + ENNReal.ofReal (2 * (n * boxMean L f)) * totalMean L q f n a
  | 0, a, _ => by simp [totalSquare, totalMean]
  | n + 1, a, ha => by
    have ih := totalSquare_close n
    set R := 1 / (4 * c * Real.exp (-(2 * B))) with hR
    have hRpos : 0 ≤ R := by have := Real.exp_pos (-(2 * B)); positivity
    set P := boxMean L f with hP
    have hP0 : 0 ≤ P := ENNReal.toReal_nonneg
    have hP1 : P ≤ 1 := by
      have h := totalMean_close hL hq hq1 f hf hf1 hB hc0 hc h0 h1
      have hpm : Measurable (Spec.posterior L) := by unfold Spec.posterior; fun_prop
      rw [hP, boxMean]
      refine ENNReal.toReal_le_of_le_ofReal zero_le_one ?_
      rw [ENNReal.ofReal_one]
      refine ENNReal.div_le_of_le_mul ?_
      rw [one_mul]
      refine setLIntegral_mono hpm fun b _ => ?_
      refine mul_le_of_le_one_right' ?_
      rw [← ENNReal.ofReal_one]
      exact ENNReal.ofReal_le_ofReal (hf1 b)
    have mA := measurable_totalMean hL hq f hf n
    have mB := measurable_totalSquare hL hq f hf n
    have mf : Measurable fun b => ENNReal.ofReal (f b) := ENNReal.measurable_ofReal.comp hf
    have key : ∀ b ∈ box, (ENNReal.ofReal (f b) ^ 2 + 2 * ENNReal.ofReal (f b) * totalMean L q f n b + totalSquare L q f n b) +
        ENNReal.ofReal (((n + 1 : ℕ) * P) ^ 2) ≤ ENNReal.ofReal ((n + 1 : ℕ) * (1 + 2 * R)) +
          ENNReal.ofReal (2 * ((n + 1 : ℕ) * P)) * (ENNReal.ofReal (f b) + totalMean L q f n b) := by
      intro b hb
      have hAt : totalMean L q f n b ≠ ⊤ := ne_top_of_le_ne_top (ENNReal.natCast_ne_top n) (totalMean_le (L := L) hq hq1 f hf1 n b hb)
      have hBt : totalSquare L q f n b ≠ ⊤ := ne_top_of_le_ne_top (ENNReal.pow_ne_top (ENNReal.natCast_ne_top n)) (totalSquare_le (L := L) hq hq1 f hf1 n b hb)
      have hft : ENNReal.ofReal (f b) ^ 2 ≠ ⊤ := ENNReal.pow_ne_top ENNReal.ofReal_ne_top
      have hfA : 2 * ENNReal.ofReal (f b) * totalMean L q f n b ≠ ⊤ := ENNReal.mul_ne_top (ENNReal.mul_ne_top (by simp) ENNReal.ofReal_ne_top) hAt
      have hprev := ih b hb
      rw [real_of_extended hAt hBt (by positivity) (by positivity) (by positivity)] at hprev
      rw [real_of_extended (ENNReal.add_ne_top.2 ⟨ENNReal.ofReal_ne_top, hAt⟩) (ENNReal.add_ne_top.2 ⟨ENNReal.add_ne_top.2 ⟨hft, hfA⟩, hBt⟩)
        (by positivity) (by positivity) (by positivity), ENNReal.toReal_add ENNReal.ofReal_ne_top hAt,
        ENNReal.toReal_add (ENNReal.add_ne_top.2 ⟨hft, hfA⟩) hBt, ENNReal.toReal_add hft hfA, ENNReal.toReal_pow, ENNReal.toReal_mul,
        ENNReal.toReal_mul, ENNReal.toReal_ofReal (hf0 b)]
      have hcl := totalMean_close hL hq hq1 f hf hf1 hB hc0 hc h0 h1 n hb
      rw [← hR, ← hP] at hcl
      set A := (totalMean L q f n b).toReal
      set D := (totalSquare L q f n b).toReal
      have v0 := hf0 b
      have v1 := hf1 b
      have hfp : |f b - P| ≤ 1 := by rw [abs_le]; constructor <;> linarith
      have hprod : (f b - P) * (A - n * P) ≤ 1 * R := by
        refine (le_abs_self _).trans ?_
        rw [abs_mul]
        exact mul_le_mul hfp hcl (abs_nonneg _) zero_le_one
      have hsq : (f b - P) ^ 2 ≤ 1 := by
        rw [← sq_abs]
        exact pow_le_one₀ (abs_nonneg _) hfp
      push_cast
      simp only [ENNReal.toReal_ofNat]
      nlinarith
    have hK := oneStep_mono (L := L) (q := q) key ha
    rw [oneStep_add hL hq (by fun_prop), oneStep_const hq hq1, oneStep_add hL hq measurable_const, oneStep_const hq hq1,
      oneStep_const_mul _ ENNReal.ofReal_ne_top] at hK
    exact hK

include hL hq hq1 hf hf0 hf1 hB hc0 hc h0 h1 in
theorem metro_mean_square {N : ℕ} (hN : 0 < N) {a : ℝ × ℝ} (ha : a ∈ box) :
    Spec.meanAfter (Spec.withTotal (metroStep L) f) q (fun st => ENNReal.ofReal ((st.2 / N - boxMean L f) ^ 2)) N (a, 0) ≤
      ENNReal.ofReal ((1 + 2 * (1 / (4 * c * Real.exp (-(2 * B))))) / N) := by
  set R := 1 / (4 * c * Real.exp (-(2 * B))) with hR
  have hRpos : 0 ≤ R := by have := Real.exp_pos (-(2 * B)); positivity
  set P := boxMean L f with hP
  have hP0 : 0 ≤ P := ENNReal.toReal_nonneg
  have hNr : (0 : ℝ) < N := by exact_mod_cast hN
  have hd := deviation_eq hL hq hq1 f hf hf0 (N * P) (by positivity) N a 0 le_rfl
  have hs := totalSquare_close hL hq hq1 f hf hf0 hf1 hB hc0 hc h0 h1 N a ha
  rw [← hR, ← hP] at hs
  set D := Spec.meanAfter (Spec.withTotal (metroStep L) f) q (fun st => ENNReal.ofReal ((st.2 - N * P) ^ 2)) N (a, 0) with hD
  have hAt : totalMean L q f N a ≠ ⊤ := ne_top_of_le_ne_top (ENNReal.natCast_ne_top N) (totalMean_le (L := L) hq hq1 f hf1 N a ha)
  simp only [ENNReal.ofReal_zero, zero_add, ne_eq, OfNat.ofNat_ne_zero, not_false_eq_true, zero_pow, mul_zero, zero_mul] at hd
  have h2 : ENNReal.ofReal (2 * (N * P)) = 2 * ENNReal.ofReal (N * P) := by
    rw [ENNReal.ofReal_mul (by norm_num)]; simp
  rw [h2, ENNReal.ofReal_pow (by positivity), ← hd] at hs
  have hDle : D ≤ ENNReal.ofReal (N * (1 + 2 * R)) :=
    (ENNReal.add_le_add_iff_right (ENNReal.mul_ne_top (ENNReal.mul_ne_top (by simp) ENNReal.ofReal_ne_top) hAt)).1 hs
  have e : (fun st : (ℝ × ℝ) × ℝ => ENNReal.ofReal ((st.2 / N - P) ^ 2)) =
      fun st => ENNReal.ofReal (1 / (N : ℝ) ^ 2) * ENNReal.ofReal ((st.2 - N * P) ^ 2) := by
    funext st
    rw [← ENNReal.ofReal_mul (by positivity)]
    congr 1
    field_simp
  rw [e, meanAfter_const_mul _ _ _ ENNReal.ofReal_ne_top, ← hD]
  refine (mul_le_mul_right hDle _).trans (le_of_eq ?_)
  rw [← ENNReal.ofReal_mul (by positivity)]
  congr 1
  field_simp

end

/-! ## The chain of the program -/

variable {ι T : Type} [Fintype ι]

theorem boxMean_eq (L : ℝ × ℝ → ℝ) (f : ℝ × ℝ → ℝ) : boxMean L f = (Spec.meanUnder L fun a => ENNReal.ofReal (f a)).toReal := rfl

theorem withTotal_transfer (ph : Phys ℝ ι T) (z : (Fin 2 → ℝ) → ℝ × ℝ) (x : ι → ℝ) (q : ℝ × ℝ → ℝ≥0∞) (psi : (Fin 2 → ℝ) → ℝ)
    (g : ℝ → ℝ≥0∞) (n : ℕ) {a : ℝ × ℝ} {s : (Fin 2 → ℝ) × Aux ℝ ι} (hs : Spec.CarriedAt ph z x a s) :
    Spec.meanAfter (Spec.withTotal (thetaMove ph z x) fun s => psi s.1) q (fun st => g st.2) n (s, 0) =
      Spec.meanAfter (Spec.withTotal (metroStep (Spec.logPosterior ph z x)) fun a => psi ![a.1, a.2]) q (fun st => g st.2) n (a, 0) := by
  refine meanAfter_transfer (fun (at' : (ℝ × ℝ) × ℝ) st => Spec.CarriedAt ph z x at'.1 st.1 ∧ st.2 = at'.2) _ _ ?_ q _ _ ?_ n (a, 0) (s, 0) ⟨hs, rfl⟩
  · rintro ⟨b, t'⟩ ⟨s', t⟩ ⟨h, ht⟩ w u
    have hm := carried_move ph z x h w u
    refine ⟨hm, ?_⟩
    simp only [Spec.withTotal]
    simp only at ht
    rw [hm.1, ht]
  · rintro ⟨b, t'⟩ ⟨s', t⟩ ⟨h, ht⟩
    simp only at ht
    simp only [ht]

section
variable (ph : Phys ℝ ι T) (z : (Fin 2 → ℝ) → ℝ × ℝ) (x : ι → ℝ)
  {q : ℝ × ℝ → ℝ≥0∞} (hq : Spec.WalkDensity q) {B c : ℝ} (hc0 : 0 < c)
  (hc : ∀ w : ℝ × ℝ, |w.1| < 2 → |w.2| < 2 → ENNReal.ofReal c ≤ q w)
  (h0 : ∀ w, q (-w.1, w.2) = q w) (h1 : ∀ w, q (w.1, -w.2) = q w)
  (hL : Measurable (Spec.logPosterior ph z x)) (hB : ∀ a ∈ Spec.Square, |Spec.logPosterior ph z x a| ≤ B)
  {psi : (Fin 2 → ℝ) → ℝ} (hpsi : Measurable fun a : ℝ × ℝ => psi ![a.1, a.2]) (hpsi0 : ∀ th, 0 ≤ psi th) (hpsi1 : ∀ th, psi th ≤ 1)

include hq hc0 hc h0 h1 hL hB hpsi hpsi0 hpsi1 in
/-- **C197.** Under the hypotheses of C196, the mean squared error of the average of `psi` over `N` successive parameters, taken
for its posterior mean, is at most `(1 + 2 / (4 c exp (-2B))) / N`, whatever the start. -/
theorem C197_mean_square {N : ℕ} (hN : 0 < N) {a : ℝ × ℝ} (ha : a ∈ Spec.Square) {s : (Fin 2 → ℝ) × Aux ℝ ι}
    (hs : Spec.CarriedAt ph z x a s) :
    Spec.meanAfter (Spec.withTotal (thetaMove ph z x) fun s => psi s.1) q
        (fun st => ENNReal.ofReal ((st.2 / N - (Spec.meanUnder (Spec.logPosterior ph z x) fun a => ENNReal.ofReal (psi ![a.1, a.2])).toReal) ^ 2)) N (s, 0) ≤
      ENNReal.ofReal ((1 + 2 * (1 / (4 * c * Real.exp (-(2 * B))))) / N) := by
  rw [withTotal_transfer ph z x q psi (fun t => ENNReal.ofReal ((t / N -
    (Spec.meanUnder (Spec.logPosterior ph z x) fun a => ENNReal.ofReal (psi ![a.1, a.2])).toReal) ^ 2)) N hs]
  exact metro_mean_square hL hq.measurable hq.total _ hpsi (fun _ => hpsi0 _) (fun _ => hpsi1 _) hB hc0 hc h0 h1 hN ha

include hq hc0 hc h0 h1 hL hB hpsi hpsi0 hpsi1 in
/-- **C197.** The probability that the average over `N` parameters misses the posterior mean by `eta` or more is at most a constant over
`N eta²`. -/
theorem C197_misses {N : ℕ} (hN : 0 < N) {eta : ℝ} (heta : 0 < eta) {a : ℝ × ℝ} (ha : a ∈ Spec.Square) {s : (Fin 2 → ℝ) × Aux ℝ ι}
    (hs : Spec.CarriedAt ph z x a s) :
    Spec.meanAfter (Spec.withTotal (thetaMove ph z x) fun s => psi s.1) q
        ({st | eta ≤ |st.2 / N - (Spec.meanUnder (Spec.logPosterior ph z x) fun a => ENNReal.ofReal (psi ![a.1, a.2])).toReal|}.indicator 1) N (s, 0) ≤
      ENNReal.ofReal ((1 + 2 * (1 / (4 * c * Real.exp (-(2 * B))))) / (N * eta ^ 2)) := by
  set mu := (Spec.meanUnder (Spec.logPosterior ph z x) fun a => ENNReal.ofReal (psi ![a.1, a.2])).toReal with hmu
  have hms := C197_mean_square ph z x hq hc0 hc h0 h1 hL hB hpsi hpsi0 hpsi1 hN ha hs
  rw [← hmu] at hms
  have hle : ∀ st : ((Fin 2 → ℝ) × Aux ℝ ι) × ℝ, {st : ((Fin 2 → ℝ) × Aux ℝ ι) × ℝ | eta ≤ |st.2 / N - mu|}.indicator (1 : ((Fin 2 → ℝ) × Aux ℝ ι) × ℝ → ℝ≥0∞) st ≤
      ENNReal.ofReal (1 / eta ^ 2) * ENNReal.ofReal ((st.2 / N - mu) ^ 2) := by
    intro st
    by_cases h : eta ≤ |st.2 / N - mu|
    · rw [indicator_of_mem (by simpa using h), Pi.one_apply, ← ENNReal.ofReal_mul (by positivity), ← ENNReal.ofReal_one]
      refine ENNReal.ofReal_le_ofReal ?_
      rw [one_div, inv_mul_eq_div, le_div_iff₀ (by positivity), one_mul, ← sq_abs (st.2 / N - mu)]
      exact pow_le_pow_left₀ heta.le h 2
    · rw [indicator_of_notMem (by simpa using h)]
      exact zero_le
  refine (meanAfter_mono _ q hle N (s, 0)).trans ?_
  rw [meanAfter_const_mul _ _ _ ENNReal.ofReal_ne_top]
  refine (mul_le_mul_right hms _).trans (le_of_eq ?_)
  rw [← ENNReal.ofReal_mul (by positivity)]
  congr 1
  have hNr : (N : ℝ) ≠ 0 := by exact_mod_cast hN.ne'
  field_simp

include hq hc0 hc h0 h1 hL hB hpsi hpsi0 hpsi1 in
/-- **C197.** The average over the first `N` parameters is consistent: the probability of missing the posterior mean by any margin tends to 0. -/
theorem C197_consistent {eta : ℝ} (heta : 0 < eta) {a : ℝ × ℝ} (ha : a ∈ Spec.Square) {s : (Fin 2 → ℝ) × Aux ℝ ι}
    (hs : Spec.CarriedAt ph z x a s) :
    Filter.Tendsto (fun N : ℕ => Spec.meanAfter (Spec.withTotal (thetaMove ph z x) fun s => psi s.1) q
        ({st | eta ≤ |st.2 / N - (Spec.meanUnder (Spec.logPosterior ph z x) fun a => ENNReal.ofReal (psi ![a.1, a.2])).toReal|}.indicator 1) N (s, 0))
      Filter.atTop (nhds 0) := by
  have hlim : Filter.Tendsto (fun N : ℕ => ENNReal.ofReal ((1 + 2 * (1 / (4 * c * Real.exp (-(2 * B))))) / (N * eta ^ 2))) Filter.atTop (nhds 0) := by
    rw [← ENNReal.ofReal_zero]
    refine ENNReal.tendsto_ofReal ?_
    have h : (fun N : ℕ => (1 + 2 * (1 / (4 * c * Real.exp (-(2 * B))))) / ((N : ℝ) * eta ^ 2)) =
        fun N : ℕ => ((1 + 2 * (1 / (4 * c * Real.exp (-(2 * B))))) / eta ^ 2) / (N : ℝ) := by
      funext N
      rw [div_div, mul_comm (eta ^ 2)]
    rw [h]
    exact tendsto_const_div_atTop_nhds_zero_nat _
  refine tendsto_of_tendsto_of_tendsto_of_le_of_le' tendsto_const_nhds hlim (Filter.Eventually.of_forall fun _ => zero_le) ?_
  filter_upwards [Filter.eventually_gt_atTop 0] with N hN
  exact C197_misses ph z x hq hc0 hc h0 h1 hL hB hpsi hpsi0 hpsi1 hN heta ha hs

include hq in
theorem carried_le {F : (Fin 2 → ℝ) × Aux ℝ ι → ℝ≥0∞} {K : ℝ≥0∞} (hF : ∀ a ∈ Spec.Square, ∀ s, Spec.CarriedAt ph z x a s → F s ≤ K) (k : ℕ) :
    ∀ a ∈ Spec.Square, ∀ s, Spec.CarriedAt ph z x a s → Spec.meanAfter (thetaMove ph z x) q F k s ≤ K := by
  induction k with
  | zero => exact hF
  | succ k ih =>
    intro a ha s hs
    calc Spec.meanAfter (thetaMove ph z x) q F (k + 1) s ≤ ∫⁻ w, q w * ∫⁻ _ in Ioo (0 : ℝ) 1, K := by
          simp only [Spec.meanAfter]
          refine lintegral_mono fun w => mul_le_mul_right (lintegral_mono fun u => ?_) _
          exact ih _ (metroStep_mem _ ha w u) _ (carried_move ph z x hs w u)
      _ = K := by
          have : ∀ w : ℝ × ℝ, q w * ∫⁻ _ in Ioo (0 : ℝ) 1, K = q w * K := by intro w; simp
          simp only [this]
          rw [lintegral_mul_const _ hq.measurable, hq.total, one_mul]

include hq hc0 hc h0 h1 hL hB hpsi hpsi0 hpsi1 in
/-- **C197.** The same bound for the average over the `N` parameters that follow any number of discarded ones. -/
theorem C197_burnin (burnin : ℕ) {N : ℕ} (hN : 0 < N) {a : ℝ × ℝ} (ha : a ∈ Spec.Square) {s : (Fin 2 → ℝ) × Aux ℝ ι}
    (hs : Spec.CarriedAt ph z x a s) :
    Spec.meanAfter (thetaMove ph z x) q (fun s' => Spec.meanAfter (Spec.withTotal (thetaMove ph z x) fun s => psi s.1) q
        (fun st => ENNReal.ofReal ((st.2 / N - (Spec.meanUnder (Spec.logPosterior ph z x) fun a => ENNReal.ofReal (psi ![a.1, a.2])).toReal) ^ 2)) N (s', 0))
        burnin s ≤ ENNReal.ofReal ((1 + 2 * (1 / (4 * c * Real.exp (-(2 * B))))) / N) :=
  carried_le ph z x hq (fun a ha s hs => C197_mean_square ph z x hq hc0 hc h0 h1 hL hB hpsi hpsi0 hpsi1 hN ha hs) burnin a ha s hs

end

/-- **C197.** The same for the chain given a table. -/
theorem C197_mean_square_given_table (ph : Phys ℝ ι T) (z : (Fin 2 → ℝ) → ℝ × ℝ) (x : ι → ℝ) (tab : T)
    {q : ℝ × ℝ → ℝ≥0∞} (hq : Spec.WalkDensity q) {B c : ℝ} (hc0 : 0 < c)
    (hc : ∀ w : ℝ × ℝ, |w.1| < 2 → |w.2| < 2 → ENNReal.ofReal c ≤ q w)
    (h0 : ∀ w, q (-w.1, w.2) = q w) (h1 : ∀ w, q (w.1, -w.2) = q w)
    (hL : Measurable (Spec.logPosteriorT ph z x tab)) (hB : ∀ a ∈ Spec.Square, |Spec.logPosteriorT ph z x tab a| ≤ B)
    {psi : (Fin 2 → ℝ) → ℝ} (hpsi : Measurable fun a : ℝ × ℝ => psi ![a.1, a.2]) (hpsi0 : ∀ th, 0 ≤ psi th) (hpsi1 : ∀ th, psi th ≤ 1)
    {N : ℕ} (hN : 0 < N) {a : ℝ × ℝ} (ha : a ∈ Spec.Square) {s : (Fin 2 → ℝ) × Aux ℝ ι × ℝ} (hs : Spec.CarriedAtT ph z x tab a s) :
    Spec.meanAfter (Spec.withTotal (thetaMoveT ph z x tab) fun s => psi s.1) q
        (fun st => ENNReal.ofReal ((st.2 / N -
          (Spec.meanUnder (Spec.logPosteriorT ph z x tab) fun a => ENNReal.ofReal (psi ![a.1, a.2])).toReal) ^ 2)) N (s, 0) ≤
      ENNReal.ofReal ((1 + 2 * (1 / (4 * c * Real.exp (-(2 * B))))) / N) := by
  have tr : ∀ g : ℝ → ℝ≥0∞, Spec.meanAfter (Spec.withTotal (thetaMoveT ph z x tab) fun s => psi s.1) q (fun st => g st.2) N (s, 0) =
      Spec.meanAfter (Spec.withTotal (metroStep (Spec.logPosteriorT ph z x tab)) fun a => psi ![a.1, a.2]) q (fun st => g st.2) N (a, 0) := by
    intro g
    refine meanAfter_transfer (fun (at' : (ℝ × ℝ) × ℝ) st => Spec.CarriedAtT ph z x tab at'.1 st.1 ∧ st.2 = at'.2) _ _ ?_ q _ _ ?_ N (a, 0) (s, 0) ⟨hs, rfl⟩
    · rintro ⟨b, t'⟩ ⟨s', t⟩ ⟨h, ht⟩ w u
      have hm := carried_moveT ph z x tab h w u
      refine ⟨hm, ?_⟩
      simp only [Spec.withTotal]
      simp only at ht
      rw [hm.1, ht]
    · rintro ⟨b, t'⟩ ⟨s', t⟩ ⟨h, ht⟩
      simp only at ht
      simp only [ht]
  rw [tr fun t => ENNReal.ofReal ((t / N - (Spec.meanUnder (Spec.logPosteriorT ph z x tab) fun a => ENNReal.ofReal (psi ![a.1, a.2])).toReal) ^ 2)]
  exact metro_mean_square hL hq.measurable hq.total _ hpsi (fun _ => hpsi0 _) (fun _ => hpsi1 _) hB hc0 hc h0 h1 hN ha

/-- **C197.** The totally constrained model with `delta > 0`, its exact normalising constant and the program's walk with a diagonal
`covariance`: there is a constant such that from every start and for every `psi` between 0 and 1 the mean squared error of the
average over `N` parameters is at most the constant over `N`. -/
theorem C197_exact {J : ℕ} (ph : Phys ℝ (Fin J) T) (z : (Fin 2 → ℝ) → ℝ × ℝ) (p : PotParams) (hd : 0 < p.delta) (hk : 0 < p.kappa)
    (he : 0 < p.epsilon) (hs : 0 < p.sigma) {I : ℕ} (hI : 0 < I) (hJ : 0 < J) (cost : ℕ → ℕ → ℝ) (x : Fin J → ℝ)
    (hpot : ∀ th y, ph.pot th y = codeTarget (p.at th) I J cost y) (hz : ∀ th, (z th).1 = Spec.exactLogZInverse (ph.pot th))
    {v v' : NNReal} (hv : v ≠ 0) (hv' : v' ≠ 0) : ∃ K : ℝ,
      ∀ psi : (Fin 2 → ℝ) → ℝ, (Measurable fun a : ℝ × ℝ => psi ![a.1, a.2]) → (∀ th, 0 ≤ psi th) → (∀ th, psi th ≤ 1) →
      ∀ N : ℕ, 0 < N → ∀ a : ℝ × ℝ, a ∈ Spec.Square → ∀ s, Spec.CarriedAt ph z x a s →
        Spec.meanAfter (Spec.withTotal (thetaMove ph z x) fun s => psi s.1) (Spec.normalWalk v v')
          (fun st => ENNReal.ofReal ((st.2 / N - (Spec.meanUnder (Spec.logPosterior ph z x) fun a => ENNReal.ofReal (psi ![a.1, a.2])).toReal) ^ 2))
          N (s, 0) ≤ ENNReal.ofReal (K / N) := by
  obtain ⟨hL, B, hB⟩ := exact_hypotheses ph z p hd hk he hs hI hJ cost x hpot hz
  refine ⟨1 + 2 * (1 / (4 * Spec.normalLow v v' * Real.exp (-(2 * B)))), ?_⟩
  intro psi hpsi hpsi0 hpsi1 N hN a ha s hs'
  refine C197_mean_square ph z x (normalWalk_density hv hv') (normalLow_pos hv hv') (normalLow_le hv hv') ?_ ?_ hL hB hpsi hpsi0 hpsi1 hN ha hs'
  · intro w; simp [Spec.normalWalk]
  · intro w; simp [Spec.normalWalk]

/-- A function meeting the hypotheses: half of `alpha`, cut to [0, 1]. -/
example : ∃ psi : (Fin 2 → ℝ) → ℝ, (Measurable fun a : ℝ × ℝ => psi ![a.1, a.2]) ∧ (∀ th, 0 ≤ psi th) ∧ (∀ th, psi th ≤ 1) ∧
    ∀ a ∈ Spec.Square, psi ![a.1, a.2] = a.1 / 2 := by
  refine ⟨fun th => max 0 (min 1 (th 0 / 2)), by simp; fun_prop, fun _ => le_max_left _ _, fun _ => max_le zero_le_one (min_le_left _ _), ?_⟩
  intro a ha
  have h := mem_Ico.1 ha.1
  simp only [Matrix.cons_val_zero]
  rw [min_eq_right (by linarith [h.2]), max_eq_right (by linarith [h.1])]

end GeNSIT
