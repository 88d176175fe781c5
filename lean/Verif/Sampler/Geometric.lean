import Verif.Sampler.Stationary
import Mathlib.Probability.Distributions.Gaussian.Real

/-!
# C196: the parameters forget where they started, at a geometric rate

`theta_steps` updates of the parameters, the destination sizes held fixed
(`gensit/learning_models/HarrisWilsonModel_MCMC.py:605-829`, `gensit/experiments.py:1421-1475`).
-/

set_option linter.unusedSectionVars false
set_option linter.unusedSimpArgs false

open MeasureTheory Set
open scoped ENNReal

namespace GeNSIT

/-- The mean of `f` after `n` updates: each draws a step of the walk with density `q` and a uniform number. -/
noncomputable def Spec.meanAfter {S : Type} (step : S → ℝ × ℝ → ℝ → S) (q : ℝ × ℝ → ℝ≥0∞) (f : S → ℝ≥0∞) : ℕ → S → ℝ≥0∞
  | 0, s => f s
  | n + 1, s => ∫⁻ w, q w * ∫⁻ u in Ioo (0 : ℝ) 1, Spec.meanAfter step q f n (step s w u)

/-- The mean of `f` after one update. -/
noncomputable def oneStep (L : ℝ × ℝ → ℝ) (q f : ℝ × ℝ → ℝ≥0∞) (a : ℝ × ℝ) : ℝ≥0∞ :=
  ∫⁻ w, q w * ∫⁻ u in Ioo (0 : ℝ) 1, f (metroStep L a w u)

theorem metroStep_mem (L : ℝ × ℝ → ℝ) {a : ℝ × ℝ} (ha : a ∈ box) (w : ℝ × ℝ) (u : ℝ) : metroStep L a w u ∈ box := by
  unfold metroStep
  split_ifs with h
  · exact h.1
  · exact ha

section
variable {L : ℝ × ℝ → ℝ} (hL : Measurable L) {q : ℝ × ℝ → ℝ≥0∞} (hq : Measurable q) (hq1 : ∫⁻ w, q w = 1)

include hL in
theorem measurable_metroAcc : Measurable fun p : (ℝ × ℝ) × (ℝ × ℝ) => metroAcc L p.1 (fold2 p.1 p.2) := by
  have hr := measurable_reflect
  have hA : Measurable fun p : (ℝ × ℝ) × (ℝ × ℝ) => metroAcc L p.1 p.2 := by
    have : (fun p : (ℝ × ℝ) × (ℝ × ℝ) => metroAcc L p.1 p.2) =
        (Prod.snd ⁻¹' box).indicator fun p => min 1 (ENNReal.ofReal (Real.exp (L p.2 - L p.1))) := by
      funext p
      by_cases h : p.2 ∈ box
      · simp [metroAcc, h]
      · simp [metroAcc, h]
    rw [this]
    exact Measurable.indicator (by fun_prop) (measurable_snd measurableSet_box)
  have hf : Measurable fun p : (ℝ × ℝ) × (ℝ × ℝ) => fold2 p.1 p.2 := by unfold fold2; fun_prop
  exact hA.comp (measurable_fst.prodMk hf)

theorem oneStep_eq (f : ℝ × ℝ → ℝ≥0∞) (a : ℝ × ℝ) : oneStep L q f a =
    ∫⁻ w, q w * (metroAcc L a (fold2 a w) * f (fold2 a w) + (1 - metroAcc L a (fold2 a w)) * f a) := by
  simp only [oneStep, lintegral_metroStep]

include hL hq in
theorem measurable_oneStep {f : ℝ × ℝ → ℝ≥0∞} (hf : Measurable f) : Measurable (oneStep L q f) := by
  have hr := measurable_reflect
  have hA := measurable_metroAcc hL
  have hf2 : Measurable fun p : (ℝ × ℝ) × (ℝ × ℝ) => fold2 p.1 p.2 := by unfold fold2; fun_prop
  have h : oneStep L q f = fun a => ∫⁻ w, q w * (metroAcc L a (fold2 a w) * f (fold2 a w) + (1 - metroAcc L a (fold2 a w)) * f a) := by
    funext a; exact oneStep_eq f a
  rw [h]
  exact Measurable.lintegral_prod_right
    (f := fun a w : ℝ × ℝ => q w * (metroAcc L a (fold2 a w) * f (fold2 a w) + (1 - metroAcc L a (fold2 a w)) * f a))
    ((hq.comp measurable_snd).mul ((hA.mul (hf.comp hf2)).add ((measurable_const.sub hA).mul (hf.comp measurable_fst))))

include hL hq in
theorem oneStep_add {f : ℝ × ℝ → ℝ≥0∞} (hf : Measurable f) (g : ℝ × ℝ → ℝ≥0∞) (a : ℝ × ℝ) :
    oneStep L q (fun b => f b + g b) a = oneStep L q f a + oneStep L q g a := by
  have hr := measurable_reflect
  have mA : Measurable fun w => metroAcc L a (fold2 a w) := (measurable_metroAcc hL).comp (measurable_const.prodMk measurable_id)
  have mf : Measurable fun w => fold2 a w := by unfold fold2; fun_prop
  rw [oneStep_eq, oneStep_eq, oneStep_eq, ← lintegral_add_left (by fun_prop)]
  refine lintegral_congr fun w => ?_
  ring

include hq hq1 in
theorem oneStep_const (c : ℝ≥0∞) (a : ℝ × ℝ) : oneStep L q (fun _ => c) a = c := by
  have : ∀ w, q w * ∫⁻ u in Ioo (0 : ℝ) 1, c = q w * c := by intro w; simp
  simp only [oneStep, this]
  rw [lintegral_mul_const _ hq, hq1, one_mul]

theorem oneStep_mono {f g : ℝ × ℝ → ℝ≥0∞} (h : ∀ b ∈ box, f b ≤ g b) {a : ℝ × ℝ} (ha : a ∈ box) :
    oneStep L q f a ≤ oneStep L q g a := by
  refine lintegral_mono fun w => mul_le_mul_right ?_ _
  exact lintegral_mono fun u => h _ (metroStep_mem L ha w u)

theorem oneStep_congr {f g : ℝ × ℝ → ℝ≥0∞} (h : ∀ b ∈ box, f b = g b) {a : ℝ × ℝ} (ha : a ∈ box) :
    oneStep L q f a = oneStep L q g a :=
  le_antisymm (oneStep_mono (fun b hb => (h b hb).le) ha) (oneStep_mono (fun b hb => (h b hb).ge) ha)

/-- The part of every update that does not depend on where it starts. -/
noncomputable def minor (B c : ℝ) : ℝ≥0∞ := ENNReal.ofReal c * ENNReal.ofReal (Real.exp (-(2 * B)))

include hL hq in
theorem oneStep_lower {B c : ℝ} (hB : ∀ a ∈ box, |L a| ≤ B)
    (hc : ∀ w : ℝ × ℝ, |w.1| < 2 → |w.2| < 2 → ENNReal.ofReal c ≤ q w) {f : ℝ × ℝ → ℝ≥0∞} (hf : Measurable f)
    {a : ℝ × ℝ} (ha : a ∈ box) : minor B c * ∫⁻ b in box, f b ≤ oneStep L q f a := by
  have mA : Measurable fun b => metroAcc L a b := by
    have : (fun b : ℝ × ℝ => metroAcc L a b) = box.indicator fun b => min 1 (ENNReal.ofReal (Real.exp (L b - L a))) := by
      funext b
      by_cases h : b ∈ box <;> simp [metroAcc, h]
    rw [this]
    exact Measurable.indicator (by fun_prop) measurableSet_box
  have e1 : ∫⁻ w, metroAcc L a (fold2 a w) * f (fold2 a w) * q w ≤ oneStep L q f a := by
    rw [oneStep_eq]
    refine lintegral_mono fun w => ?_
    calc metroAcc L a (fold2 a w) * f (fold2 a w) * q w = q w * (metroAcc L a (fold2 a w) * f (fold2 a w)) := mul_comm _ _
      _ ≤ _ := mul_le_mul_right le_self_add _
  refine le_trans ?_ e1
  rw [lintegral_fold2 (fun b => metroAcc L a b * f b) q (mA.mul hf) hq (by intro b hb; simp [metroAcc, hb]) a]
  rw [← lintegral_const_mul _ hf, ← lintegral_indicator measurableSet_box]
  refine lintegral_mono fun b => ?_
  by_cases hb : b ∈ box
  · rw [indicator_of_mem hb]
    have h1 : ENNReal.ofReal (Real.exp (-(2 * B))) ≤ metroAcc L a b := by
      unfold metroAcc
      rw [indicator_of_mem hb]
      have ha' := abs_le.1 (hB a ha)
      have hb' := abs_le.1 (hB b hb)
      refine le_min ?_ (ENNReal.ofReal_le_ofReal (Real.exp_le_exp.2 (by linarith)))
      rw [← ENNReal.ofReal_one]
      refine ENNReal.ofReal_le_ofReal ?_
      rw [Real.exp_le_one_iff]
      linarith
    have h2 : ENNReal.ofReal c ≤ foldKernel q a b := by
      have ha0 := ha.1
      have ha1 := ha.2
      have hb0 := hb.1
      have hb1 := hb.2
      simp only [mem_Ico] at ha0 ha1 hb0 hb1
      have := hc (b.1 - a.1, b.2 - a.2) (by rw [abs_lt]; constructor <;> simp <;> linarith)
        (by rw [abs_lt]; constructor <;> simp <;> linarith)
      refine this.trans ?_
      unfold foldKernel
      simp only
      exact le_self_add.trans (le_self_add.trans (le_self_add.trans le_self_add))
    calc minor B c * f b = ENNReal.ofReal (Real.exp (-(2 * B))) * f b * ENNReal.ofReal c := by unfold minor; ring
      _ ≤ metroAcc L a b * f b * foldKernel q a b := mul_le_mul' (mul_le_mul' h1 le_rfl) h2
  · rw [indicator_of_notMem hb]
    exact zero_le

theorem volume_box : volume box = 4 := by
  rw [box, Measure.volume_eq_prod, Measure.prod_prod, Real.volume_Ico, sub_zero]
  rw [← ENNReal.ofReal_mul (by norm_num)]
  norm_num

include hL hq hq1 in
theorem minor_le {B c : ℝ} (hB : ∀ a ∈ box, |L a| ≤ B) (hc : ∀ w : ℝ × ℝ, |w.1| < 2 → |w.2| < 2 → ENNReal.ofReal c ≤ q w) :
    minor B c * 4 ≤ 1 := by
  have h := oneStep_lower hL hq hB hc (f := fun _ => 1) measurable_const (a := (0, 0)) (by simp [box])
  rw [oneStep_const hq hq1] at h
  simpa [volume_box] using h

include hL hq hq1 in
/-- One update shrinks the spread. -/
theorem oneStep_shrinks {B c : ℝ} (hB : ∀ a ∈ box, |L a| ≤ B) (hc : ∀ w : ℝ × ℝ, |w.1| < 2 → |w.2| < 2 → ENNReal.ofReal c ≤ q w)
    {g : ℝ × ℝ → ℝ≥0∞} (hg : Measurable g) {l r : ℝ≥0∞} (hl : l ≠ ⊤) (hr : r ≠ ⊤) (h : ∀ a ∈ box, l ≤ g a ∧ g a ≤ l + r) :
    ∃ l' : ℝ≥0∞, l' ≠ ⊤ ∧ ∀ a ∈ box, l' ≤ oneStep L q g a ∧ oneStep L q g a ≤ l' + (1 - minor B c * 4) * r := by
  set e := minor B c with he
  have he4 : e * 4 ≤ 1 := minor_le hL hq hq1 hB hc
  have m1 : Measurable fun b => g b - l := hg.sub measurable_const
  have m2 : Measurable fun b => r - (g b - l) := measurable_const.sub m1
  have s1 : ∀ b ∈ box, g b = l + (g b - l) := fun b hb => (add_tsub_cancel_of_le (h b hb).1).symm
  have s2 : ∀ b ∈ box, (g b - l) + (r - (g b - l)) = r := fun b hb =>
    add_tsub_cancel_of_le (tsub_le_iff_left.2 (h b hb).2)
  have hIJ : (∫⁻ b in box, (g b - l)) + ∫⁻ b in box, (r - (g b - l)) = 4 * r := by
    rw [← lintegral_add_left m1, setLIntegral_congr_fun (g := fun _ => r) measurableSet_box s2, setLIntegral_const,
      volume_box, mul_comm]
  set I := ∫⁻ b in box, (g b - l) with hI
  set J := ∫⁻ b in box, (r - (g b - l)) with hJ
  have hfin : e ≠ ⊤ := by
    rw [he, minor]; exact ENNReal.mul_ne_top ENNReal.ofReal_ne_top ENNReal.ofReal_ne_top
  have hIt : I ≠ ⊤ := ne_top_of_le_ne_top (ENNReal.mul_ne_top (by simp) hr) (hIJ ▸ le_self_add)
  refine ⟨l + e * I, by simp [hl, ENNReal.mul_ne_top hfin hIt], fun a ha => ?_⟩
  have d1 : oneStep L q g a = l + oneStep L q (fun b => g b - l) a := by
    rw [oneStep_congr s1 ha, oneStep_add hL hq measurable_const, oneStep_const hq hq1]
  have d2 : oneStep L q (fun b => g b - l) a + oneStep L q (fun b => r - (g b - l)) a = r := by
    rw [← oneStep_add hL hq m1, oneStep_congr s2 ha, oneStep_const hq hq1]
  have b1 : e * I ≤ oneStep L q (fun b => g b - l) a := oneStep_lower hL hq hB hc m1 ha
  have b2 : e * J ≤ oneStep L q (fun b => r - (g b - l)) a := oneStep_lower hL hq hB hc m2 ha
  constructor
  · rw [d1]; gcongr
  · rw [d1, add_assoc]
    refine add_le_add le_rfl ?_
    have hY : oneStep L q (fun b => r - (g b - l)) a ≠ ⊤ := ne_top_of_le_ne_top hr (le_add_self.trans_eq d2)
    rw [← ENNReal.add_le_add_iff_right hY, d2]
    have : r = (e * I + (1 - e * 4) * r) + e * J := by
      calc r = (e * 4 + (1 - e * 4)) * r := by rw [add_tsub_cancel_of_le he4, one_mul]
        _ = e * (I + J) + (1 - e * 4) * r := by rw [hIJ]; ring
        _ = _ := by ring
    calc r = (e * I + (1 - e * 4) * r) + e * J := this
      _ ≤ _ := by gcongr

/-- The mean after `n` updates, from the inside. -/
theorem meanAfter_succ (L : ℝ × ℝ → ℝ) (f : ℝ × ℝ → ℝ≥0∞) (n : ℕ) :
    Spec.meanAfter (metroStep L) q f (n + 1) = oneStep L q (Spec.meanAfter (metroStep L) q f n) := rfl

include hL hq in
theorem measurable_meanAfter {f : ℝ × ℝ → ℝ≥0∞} (hf : Measurable f) : ∀ n, Measurable (Spec.meanAfter (metroStep L) q f n)
  | 0 => hf
  | n + 1 => by rw [meanAfter_succ]; exact measurable_oneStep hL hq (measurable_meanAfter hf n)

include hL hq hq1 in
theorem meanAfter_spread {B c : ℝ} (hB : ∀ a ∈ box, |L a| ≤ B) (hc : ∀ w : ℝ × ℝ, |w.1| < 2 → |w.2| < 2 → ENNReal.ofReal c ≤ q w)
    {f : ℝ × ℝ → ℝ≥0∞} (hf : Measurable f) (hf1 : ∀ a ∈ box, f a ≤ 1) : ∀ n, ∃ l : ℝ≥0∞, l ≠ ⊤ ∧ ∀ a ∈ box,
      l ≤ Spec.meanAfter (metroStep L) q f n a ∧ Spec.meanAfter (metroStep L) q f n a ≤ l + (1 - minor B c * 4) ^ n
  | 0 => ⟨0, by simp, fun a ha => ⟨zero_le, by simpa [Spec.meanAfter] using hf1 a ha⟩⟩
  | n + 1 => by
    obtain ⟨l, hl, h⟩ := meanAfter_spread hB hc hf hf1 n
    have hr : (1 - minor B c * 4) ^ n ≠ ⊤ := ENNReal.pow_ne_top (ne_top_of_le_ne_top (by simp) tsub_le_self)
    obtain ⟨l', hl', h'⟩ := oneStep_shrinks hL hq hq1 hB hc (measurable_meanAfter hL hq hf n) hl hr h
    refine ⟨l', hl', fun a ha => ?_⟩
    rw [pow_succ, mul_comm ((1 - minor B c * 4) ^ n)]
    exact h' a ha

include hL hq hq1 in
theorem rate_nonneg {B c : ℝ} (hB : ∀ a ∈ box, |L a| ≤ B) (hc0 : 0 ≤ c)
    (hc : ∀ w : ℝ × ℝ, |w.1| < 2 → |w.2| < 2 → ENNReal.ofReal c ≤ q w) : 0 ≤ 1 - 4 * c * Real.exp (-(2 * B)) := by
  have h := ENNReal.toReal_mono (by simp) (minor_le hL hq hq1 hB hc)
  rw [minor, ENNReal.toReal_mul, ENNReal.toReal_mul, ENNReal.toReal_ofReal hc0, ENNReal.toReal_ofReal (Real.exp_nonneg _)] at h
  simp at h
  linarith

include hL hq hq1 in
theorem rate_toReal {B c : ℝ} (hB : ∀ a ∈ box, |L a| ≤ B) (hc0 : 0 ≤ c)
    (hc : ∀ w : ℝ × ℝ, |w.1| < 2 → |w.2| < 2 → ENNReal.ofReal c ≤ q w) :
    (1 - minor B c * 4).toReal = 1 - 4 * c * Real.exp (-(2 * B)) := by
  rw [ENNReal.toReal_sub_of_le (minor_le hL hq hq1 hB hc) (by simp), minor, ENNReal.toReal_mul, ENNReal.toReal_mul,
    ENNReal.toReal_ofReal hc0, ENNReal.toReal_ofReal (Real.exp_nonneg _)]
  simp
  ring

include hL hq hq1 in
theorem metro_forgets {B c : ℝ} (hB : ∀ a ∈ box, |L a| ≤ B) (hc0 : 0 ≤ c)
    (hc : ∀ w : ℝ × ℝ, |w.1| < 2 → |w.2| < 2 → ENNReal.ofReal c ≤ q w)
    {f : ℝ × ℝ → ℝ≥0∞} (hf : Measurable f) (hf1 : ∀ a ∈ box, f a ≤ 1) (n : ℕ) {a b : ℝ × ℝ} (ha : a ∈ box) (hb : b ∈ box) :
    |(Spec.meanAfter (metroStep L) q f n a).toReal - (Spec.meanAfter (metroStep L) q f n b).toReal| ≤
      (1 - 4 * c * Real.exp (-(2 * B))) ^ n := by
  obtain ⟨l, hl, h⟩ := meanAfter_spread hL hq hq1 hB hc hf hf1 n
  have hrn : (1 - minor B c * 4) ^ n ≠ ⊤ := ENNReal.pow_ne_top (ne_top_of_le_ne_top (by simp) tsub_le_self)
  have hlr : l + (1 - minor B c * 4) ^ n ≠ ⊤ := ENNReal.add_ne_top.2 ⟨hl, hrn⟩
  have tR : (l + (1 - minor B c * 4) ^ n).toReal = l.toReal + (1 - 4 * c * Real.exp (-(2 * B))) ^ n := by
    rw [ENNReal.toReal_add hl hrn, ENNReal.toReal_pow, rate_toReal hL hq hq1 hB hc0 hc]
  have k1 := ENNReal.toReal_mono (ne_top_of_le_ne_top hlr (h a ha).2) (h a ha).1
  have k2 := ENNReal.toReal_mono hlr (h a ha).2
  have k3 := ENNReal.toReal_mono (ne_top_of_le_ne_top hlr (h b hb).2) (h b hb).1
  have k4 := ENNReal.toReal_mono hlr (h b hb).2
  rw [tR] at k2 k4
  rw [abs_le]
  constructor <;> linarith

variable (h0 : ∀ w, q (-w.1, w.2) = q w) (h1 : ∀ w, q (w.1, -w.2) = q w)

include hL hq hq1 h0 h1 in
theorem meanAfter_stationary {f : ℝ × ℝ → ℝ≥0∞} (hf : Measurable f) : ∀ n,
    ∫⁻ a in box, Spec.posterior L a * Spec.meanAfter (metroStep L) q f n a = ∫⁻ a in box, Spec.posterior L a * f a
  | 0 => rfl
  | n + 1 => by
    rw [← meanAfter_stationary hf n]
    exact metro_stationary L hL q hq hq1 h0 h1 _ (measurable_meanAfter hL hq hf n)

include hL hq hq1 h0 h1 in
theorem metro_converges {B c : ℝ} (hB : ∀ a ∈ box, |L a| ≤ B) (hc0 : 0 ≤ c)
    (hc : ∀ w : ℝ × ℝ, |w.1| < 2 → |w.2| < 2 → ENNReal.ofReal c ≤ q w)
    {f : ℝ × ℝ → ℝ≥0∞} (hf : Measurable f) (hf1 : ∀ a ∈ box, f a ≤ 1) (n : ℕ) {a : ℝ × ℝ} (ha : a ∈ box) :
    |(Spec.meanAfter (metroStep L) q f n a).toReal -
        ((∫⁻ b in box, Spec.posterior L b * f b) / ∫⁻ b in box, Spec.posterior L b).toReal| ≤
      (1 - 4 * c * Real.exp (-(2 * B))) ^ n := by
  obtain ⟨l, hl, h⟩ := meanAfter_spread hL hq hq1 hB hc hf hf1 n
  have hm4 := minor_le hL hq hq1 hB hc
  set r : ℝ≥0∞ := 1 - minor B c * 4 with hr
  have hrt : r ≠ ⊤ := ne_top_of_le_ne_top (by simp) tsub_le_self
  have hrR : r.toReal = 1 - 4 * c * Real.exp (-(2 * B)) := by
    rw [hr, ENNReal.toReal_sub_of_le hm4 (by simp), minor, ENNReal.toReal_mul, ENNReal.toReal_mul, ENNReal.toReal_ofReal hc0,
      ENNReal.toReal_ofReal (Real.exp_nonneg _)]
    simp
    ring
  have hpm : Measurable (Spec.posterior L) := by unfold Spec.posterior; fun_prop
  set Z := ∫⁻ b in box, Spec.posterior L b with hZ
  have hZ0 : Z ≠ 0 := by
    have : ENNReal.ofReal (Real.exp (-B)) * 4 ≤ Z := by
      rw [hZ, ← volume_box, ← setLIntegral_const]
      refine setLIntegral_mono hpm fun b hb => ?_
      exact ENNReal.ofReal_le_ofReal (Real.exp_le_exp.2 (by have := abs_le.1 (hB b hb); linarith))
    intro hz
    rw [hz] at this
    have hp : 0 < ENNReal.ofReal (Real.exp (-B)) * 4 :=
      ENNReal.mul_pos (by simpa using Real.exp_pos (-B)) (by simp)
    exact absurd this (not_le.2 hp)
  have hZt : Z ≠ ⊤ := by
    have : Z ≤ ENNReal.ofReal (Real.exp B) * 4 := by
      rw [hZ, ← volume_box, ← setLIntegral_const]
      refine setLIntegral_mono measurable_const fun b hb => ?_
      exact ENNReal.ofReal_le_ofReal (Real.exp_le_exp.2 (by have := abs_le.1 (hB b hb); linarith))
    exact ne_top_of_le_ne_top (ENNReal.mul_ne_top ENNReal.ofReal_ne_top (by simp)) this
  have hst := meanAfter_stationary hL hq hq1 h0 h1 hf n
  set M := (∫⁻ b in box, Spec.posterior L b * f b) / Z with hM
  have hMl : l ≤ M := by
    rw [hM, ENNReal.le_div_iff_mul_le (Or.inl hZ0) (Or.inl hZt), ← hst, mul_comm, hZ, ← lintegral_mul_const _ hpm]
    exact setLIntegral_mono (hpm.mul (measurable_meanAfter hL hq hf n)) fun b hb => mul_le_mul_right (h b hb).1 _
  have hMu : M ≤ l + r ^ n := by
    rw [hM, ENNReal.div_le_iff hZ0 hZt, ← hst, mul_comm (l + r ^ n), hZ, ← lintegral_mul_const _ hpm]
    exact setLIntegral_mono (hpm.mul measurable_const) fun b hb => mul_le_mul_right (h b hb).2 _
  have hrn : r ^ n ≠ ⊤ := ENNReal.pow_ne_top hrt
  have hlr : l + r ^ n ≠ ⊤ := ENNReal.add_ne_top.2 ⟨hl, hrn⟩
  have tR : (l + r ^ n).toReal = l.toReal + (1 - 4 * c * Real.exp (-(2 * B))) ^ n := by
    rw [ENNReal.toReal_add hl hrn, ENNReal.toReal_pow, hrR]
  have k1 := ENNReal.toReal_mono (ne_top_of_le_ne_top hlr (h a ha).2) (h a ha).1
  have k2 := ENNReal.toReal_mono hlr (h a ha).2
  have k3 := ENNReal.toReal_mono (ne_top_of_le_ne_top hlr hMu) hMl
  have k4 := ENNReal.toReal_mono hlr hMu
  rw [tR] at k2 k4
  rw [abs_le]
  constructor <;> linarith

end

/-! ## The update of the parameters -/

variable {ι T : Type} [Fintype ι]

/-- One update: the step of the walk is `w`, the uniform draw `u`; `gensit/learning_models/HarrisWilsonModel_MCMC.py:605-690`. -/
noncomputable def thetaMove (ph : Phys ℝ ι T) (z : (Fin 2 → ℝ) → ℝ × ℝ) (x : ι → ℝ) (s : (Fin 2 → ℝ) × Aux ℝ ι) (w : ℝ × ℝ) (u : ℝ) :
    (Fin 2 → ℝ) × Aux ℝ ι := (thetaStep ph ![w.1, w.2] z (Real.log u) x s).1

/-- The same given a table (lines 693-829). -/
noncomputable def thetaMoveT (ph : Phys ℝ ι T) (z : (Fin 2 → ℝ) → ℝ × ℝ) (x : ι → ℝ) (tab : T)
    (s : (Fin 2 → ℝ) × Aux ℝ ι × ℝ) (w : ℝ × ℝ) (u : ℝ) : (Fin 2 → ℝ) × Aux ℝ ι × ℝ :=
  (thetaStepT ph ![w.1, w.2] z (Real.log u) x tab s).1

/-- The log posterior of the parameters. -/
noncomputable def Spec.logPosterior (ph : Phys ℝ ι T) (z : (Fin 2 → ℝ) → ℝ × ℝ) (x : ι → ℝ) (a : ℝ × ℝ) : ℝ :=
  (z ![a.1, a.2 * ph.bmax]).1 - ph.pot ![a.1, a.2 * ph.bmax] x

/-- The log posterior of the parameters given a table. -/
noncomputable def Spec.logPosteriorT (ph : Phys ℝ ι T) (z : (Fin 2 → ℝ) → ℝ × ℝ) (x : ι → ℝ) (tab : T) (a : ℝ × ℝ) : ℝ :=
  (z ![a.1, a.2 * ph.bmax]).1 - ph.pot ![a.1, a.2 * ph.bmax] x - ph.nlt ![a.1, a.2 * ph.bmax] x tab

/-- The carried values are those of the parameters `a`. -/
def Spec.CarriedAt (ph : Phys ℝ ι T) (z : (Fin 2 → ℝ) → ℝ × ℝ) (x : ι → ℝ) (a : ℝ × ℝ) (s : (Fin 2 → ℝ) × Aux ℝ ι) : Prop :=
  s.1 = ![a.1, a.2] ∧ s.2.V = ph.pot ![a.1, a.2 * ph.bmax] x ∧ s.2.logZ = (z ![a.1, a.2 * ph.bmax]).1

/-- The same given a table. -/
def Spec.CarriedAtT (ph : Phys ℝ ι T) (z : (Fin 2 → ℝ) → ℝ × ℝ) (x : ι → ℝ) (tab : T) (a : ℝ × ℝ)
    (s : (Fin 2 → ℝ) × Aux ℝ ι × ℝ) : Prop :=
  s.1 = ![a.1, a.2] ∧ s.2.1.V = ph.pot ![a.1, a.2 * ph.bmax] x ∧ s.2.1.logZ = (z ![a.1, a.2 * ph.bmax]).1 ∧
    s.2.2 = ph.nlt ![a.1, a.2 * ph.bmax] x tab

/-- The square `[0,2)²`. -/
def Spec.Square : Set (ℝ × ℝ) := Ico 0 2 ×ˢ Ico 0 2

/-- The mean of `psi` over the square under the density proportional to `exp (L a)`. -/
noncomputable def Spec.meanUnder (L : ℝ × ℝ → ℝ) (psi : ℝ × ℝ → ℝ≥0∞) : ℝ≥0∞ :=
  (∫⁻ a in Spec.Square, ENNReal.ofReal (Real.exp (L a)) * psi a) / ∫⁻ a in Spec.Square, ENNReal.ofReal (Real.exp (L a))

/-- A density of the steps of the walk. -/
structure Spec.WalkDensity (q : ℝ × ℝ → ℝ≥0∞) : Prop where
  measurable : Measurable q
  total : ∫⁻ w, q w = 1

theorem proposal_pair (a w : ℝ × ℝ) : thetaProposal ![a.1, a.2] ![w.1, w.2] = ![(fold2 a w).1, (fold2 a w).2] := by
  funext i
  fin_cases i <;> simp [thetaProposal, fold2]

theorem carried_move (ph : Phys ℝ ι T) (z : (Fin 2 → ℝ) → ℝ × ℝ) (x : ι → ℝ) {a : ℝ × ℝ} {s : (Fin 2 → ℝ) × Aux ℝ ι}
    (h : Spec.CarriedAt ph z x a s) (w : ℝ × ℝ) (u : ℝ) :
    Spec.CarriedAt ph z x (metroStep (Spec.logPosterior ph z x) a w u) (thetaMove ph z x s w u) := by
  obtain ⟨hs, hV, hZ⟩ := h
  have ho := outside_iff ![(fold2 a w).1, (fold2 a w).2]
  rw [inBox_pair] at ho
  have hsc : scaleTheta ph.bmax ![(fold2 a w).1, (fold2 a w).2] = ![(fold2 a w).1, (fold2 a w).2 * ph.bmax] := by
    rw [scaleTheta_eq]; rfl
  unfold metroStep thetaMove thetaStep
  rw [hs, proposal_pair]
  by_cases hb : fold2 a w ∈ box
  · have hn : ¬ outsideBox ![(fold2 a w).1, (fold2 a w).2] := fun h => (ho.1 h) hb
    simp only [hn, if_false, hb, true_and, hsc, hV, hZ, Spec.logPosterior]
    split_ifs
    · exact ⟨rfl, rfl, rfl⟩
    · exact ⟨hs, hV, hZ⟩
  · have hn : outsideBox ![(fold2 a w).1, (fold2 a w).2] := ho.2 hb
    simp only [hn, if_true, hb, false_and, if_false]
    exact ⟨hs, hV, hZ⟩

theorem carried_moveT (ph : Phys ℝ ι T) (z : (Fin 2 → ℝ) → ℝ × ℝ) (x : ι → ℝ) (tab : T) {a : ℝ × ℝ}
    {s : (Fin 2 → ℝ) × Aux ℝ ι × ℝ} (h : Spec.CarriedAtT ph z x tab a s) (w : ℝ × ℝ) (u : ℝ) :
    Spec.CarriedAtT ph z x tab (metroStep (Spec.logPosteriorT ph z x tab) a w u) (thetaMoveT ph z x tab s w u) := by
  obtain ⟨hs, hV, hZ, hl⟩ := h
  have ho := outside_iff ![(fold2 a w).1, (fold2 a w).2]
  rw [inBox_pair] at ho
  have hsc : scaleTheta ph.bmax ![(fold2 a w).1, (fold2 a w).2] = ![(fold2 a w).1, (fold2 a w).2 * ph.bmax] := by
    rw [scaleTheta_eq]; rfl
  unfold metroStep thetaMoveT thetaStepT
  rw [hs, proposal_pair]
  by_cases hb : fold2 a w ∈ box
  · have hn : ¬ outsideBox ![(fold2 a w).1, (fold2 a w).2] := fun h => (ho.1 h) hb
    simp only [hn, if_false, hb, true_and, hsc, hV, hZ, hl, Spec.logPosteriorT]
    split_ifs
    · exact ⟨rfl, rfl, rfl, rfl⟩
    · exact ⟨hs, hV, hZ, hl⟩
  · have hn : outsideBox ![(fold2 a w).1, (fold2 a w).2] := ho.2 hb
    simp only [hn, if_true, hb, false_and, if_false]
    exact ⟨hs, hV, hZ, hl⟩

/-- Following a state through a relation. -/
theorem meanAfter_transfer {S S' : Type} (R : S' → S → Prop) (step : S → ℝ × ℝ → ℝ → S) (step' : S' → ℝ × ℝ → ℝ → S')
    (hR : ∀ a s, R a s → ∀ w u, R (step' a w u) (step s w u)) (q : ℝ × ℝ → ℝ≥0∞) (f : S → ℝ≥0∞) (f' : S' → ℝ≥0∞)
    (hf : ∀ a s, R a s → f s = f' a) : ∀ (n : ℕ) (a : S') (s : S), R a s →
      Spec.meanAfter step q f n s = Spec.meanAfter step' q f' n a
  | 0, a, s, h => hf a s h
  | n + 1, a, s, h => by
    simp only [Spec.meanAfter]
    refine lintegral_congr fun w => ?_
    congr 1
    refine lintegral_congr fun u => ?_
    exact meanAfter_transfer R step step' hR q f f' hf n _ _ (hR a s h w u)

section
variable (ph : Phys ℝ ι T) (z : (Fin 2 → ℝ) → ℝ × ℝ) (x : ι → ℝ) (tab : T)
  {q : ℝ × ℝ → ℝ≥0∞} (hq : Spec.WalkDensity q) {B c : ℝ} (hc0 : 0 ≤ c)
  (hc : ∀ w : ℝ × ℝ, |w.1| < 2 → |w.2| < 2 → ENNReal.ofReal c ≤ q w)
  {psi : (Fin 2 → ℝ) → ℝ≥0∞} (hpsi : Measurable fun a : ℝ × ℝ => psi ![a.1, a.2]) (hpsi1 : ∀ th, psi th ≤ 1)

include hq hc0 hc hpsi hpsi1 in
/-- **C196.** Hold the destination sizes fixed, let the log posterior of the parameters be bounded by `B` on the square, let the
walk have a density that is at least `c` on the steps that can occur inside the square and that does not depend on their signs.
From any parameters in the square, the mean of any `psi` between 0 and 1 (the probability of any event) after `n` updates is
within `(1 - 4 c exp (-2B))^n` of its posterior mean. -/
theorem C196_converges (hL : Measurable (Spec.logPosterior ph z x)) (hB : ∀ a ∈ Spec.Square, |Spec.logPosterior ph z x a| ≤ B)
    (h0 : ∀ w, q (-w.1, w.2) = q w) (h1 : ∀ w, q (w.1, -w.2) = q w) (n : ℕ) {a : ℝ × ℝ} (ha : a ∈ Spec.Square)
    {s : (Fin 2 → ℝ) × Aux ℝ ι} (hs : Spec.CarriedAt ph z x a s) :
    |(Spec.meanAfter (thetaMove ph z x) q (fun s => psi s.1) n s).toReal -
        (Spec.meanUnder (Spec.logPosterior ph z x) fun a => psi ![a.1, a.2]).toReal| ≤ (1 - 4 * c * Real.exp (-(2 * B))) ^ n := by
  rw [meanAfter_transfer (Spec.CarriedAt ph z x) (thetaMove ph z x) (metroStep (Spec.logPosterior ph z x))
    (fun a s h w u => carried_move ph z x h w u) q (fun s => psi s.1) (fun a => psi ![a.1, a.2]) (fun a s h => by rw [h.1]) n a s hs]
  exact metro_converges hL hq.measurable hq.total h0 h1 hB hc0 hc hpsi (fun a _ => hpsi1 _) n ha

include hq hc0 hc hpsi hpsi1 in
/-- **C196.** The same given a table. -/
theorem C196_converges_given_table (hL : Measurable (Spec.logPosteriorT ph z x tab))
    (hB : ∀ a ∈ Spec.Square, |Spec.logPosteriorT ph z x tab a| ≤ B)
    (h0 : ∀ w, q (-w.1, w.2) = q w) (h1 : ∀ w, q (w.1, -w.2) = q w) (n : ℕ) {a : ℝ × ℝ} (ha : a ∈ Spec.Square)
    {s : (Fin 2 → ℝ) × Aux ℝ ι × ℝ} (hs : Spec.CarriedAtT ph z x tab a s) :
    |(Spec.meanAfter (thetaMoveT ph z x tab) q (fun s => psi s.1) n s).toReal -
        (Spec.meanUnder (Spec.logPosteriorT ph z x tab) fun a => psi ![a.1, a.2]).toReal| ≤
      (1 - 4 * c * Real.exp (-(2 * B))) ^ n := by
  rw [meanAfter_transfer (Spec.CarriedAtT ph z x tab) (thetaMoveT ph z x tab) (metroStep (Spec.logPosteriorT ph z x tab))
    (fun a s h w u => carried_moveT ph z x tab h w u) q (fun s => psi s.1) (fun a => psi ![a.1, a.2]) (fun a s h => by rw [h.1]) n a s hs]
  exact metro_converges hL hq.measurable hq.total h0 h1 hB hc0 hc hpsi (fun a _ => hpsi1 _) n ha

include hq hc0 hc hpsi hpsi1 in
/-- **C196.** Two runs from different parameters agree up to the same amount; here the walk may be correlated. -/
theorem C196_forgets (hL : Measurable (Spec.logPosterior ph z x)) (hB : ∀ a ∈ Spec.Square, |Spec.logPosterior ph z x a| ≤ B)
    (n : ℕ) {a b : ℝ × ℝ} (ha : a ∈ Spec.Square) (hb : b ∈ Spec.Square)
    {s t : (Fin 2 → ℝ) × Aux ℝ ι} (hs : Spec.CarriedAt ph z x a s) (ht : Spec.CarriedAt ph z x b t) :
    |(Spec.meanAfter (thetaMove ph z x) q (fun s => psi s.1) n s).toReal -
        (Spec.meanAfter (thetaMove ph z x) q (fun s => psi s.1) n t).toReal| ≤ (1 - 4 * c * Real.exp (-(2 * B))) ^ n := by
  have tr := meanAfter_transfer (Spec.CarriedAt ph z x) (thetaMove ph z x) (metroStep (Spec.logPosterior ph z x))
    (fun a s h w u => carried_move ph z x h w u) q (fun s => psi s.1) (fun a => psi ![a.1, a.2]) (fun a s h => by rw [h.1]) n
  rw [tr a s hs, tr b t ht]
  exact metro_forgets hL hq.measurable hq.total hB hc0 hc hpsi (fun a _ => hpsi1 _) n ha hb

include hq hc0 hc hpsi hpsi1 in
/-- **C196.** If `c > 0`, the law of the parameters tends to the posterior, whatever the start. -/
theorem C196_limit (hcp : 0 < c) (hL : Measurable (Spec.logPosterior ph z x))
    (hB : ∀ a ∈ Spec.Square, |Spec.logPosterior ph z x a| ≤ B)
    (h0 : ∀ w, q (-w.1, w.2) = q w) (h1 : ∀ w, q (w.1, -w.2) = q w) {a : ℝ × ℝ} (ha : a ∈ Spec.Square)
    {s : (Fin 2 → ℝ) × Aux ℝ ι} (hs : Spec.CarriedAt ph z x a s) :
    Filter.Tendsto (fun n => (Spec.meanAfter (thetaMove ph z x) q (fun s => psi s.1) n s).toReal) Filter.atTop
      (nhds (Spec.meanUnder (Spec.logPosterior ph z x) fun a => psi ![a.1, a.2]).toReal) := by
  have h4 := rate_nonneg hL hq.measurable hq.total hB hc0 hc
  have hlt : 1 - 4 * c * Real.exp (-(2 * B)) < 1 := by
    have := mul_pos (mul_pos (by norm_num : (0 : ℝ) < 4) hcp) (Real.exp_pos (-(2 * B)))
    linarith
  rw [tendsto_iff_dist_tendsto_zero]
  refine squeeze_zero (fun _ => dist_nonneg) (fun n => ?_) (tendsto_pow_atTop_nhds_zero_of_lt_one h4 hlt)
  rw [Real.dist_eq]
  exact C196_converges ph z x hq hc0 hc hpsi hpsi1 hL hB h0 h1 n ha hs

end

/-! ## The walk of the program -/

/-- The density of two independent normal steps with mean 0 and variances `v` and `v'`: `step_size` times a diagonal matrix
times two standard normal draws (`HarrisWilsonModel_MCMC.py:633`, `:722`). -/
noncomputable def Spec.normalWalk (v v' : NNReal) (w : ℝ × ℝ) : ℝ≥0∞ :=
  ENNReal.ofReal ((√(2 * Real.pi * v))⁻¹ * Real.exp (-w.1 ^ 2 / (2 * v))) *
    ENNReal.ofReal ((√(2 * Real.pi * v'))⁻¹ * Real.exp (-w.2 ^ 2 / (2 * v')))

theorem normalWalk_eq (v v' : NNReal) (w : ℝ × ℝ) :
    Spec.normalWalk v v' w = ProbabilityTheory.gaussianPDF 0 v w.1 * ProbabilityTheory.gaussianPDF 0 v' w.2 := by
  simp [Spec.normalWalk, ProbabilityTheory.gaussianPDF, ProbabilityTheory.gaussianPDFReal]

theorem normalWalk_density {v v' : NNReal} (hv : v ≠ 0) (hv' : v' ≠ 0) : Spec.WalkDensity (Spec.normalWalk v v') := by
  have m := ProbabilityTheory.measurable_gaussianPDF 0 v
  have m' := ProbabilityTheory.measurable_gaussianPDF 0 v'
  have he : Spec.normalWalk v v' = fun w => ProbabilityTheory.gaussianPDF 0 v w.1 * ProbabilityTheory.gaussianPDF 0 v' w.2 := by
    funext w; exact normalWalk_eq v v' w
  constructor
  · rw [he]; exact (m.comp measurable_fst).mul (m'.comp measurable_snd)
  · rw [he, Measure.volume_eq_prod, lintegral_prod_mul m.aemeasurable m'.aemeasurable,
      ProbabilityTheory.lintegral_gaussianPDF_eq_one 0 hv, ProbabilityTheory.lintegral_gaussianPDF_eq_one 0 hv', one_mul]

/-- The lower bound of the density on the steps inside the square. -/
noncomputable def Spec.normalLow (v v' : NNReal) : ℝ :=
  ((√(2 * Real.pi * v))⁻¹ * Real.exp (-2 / v)) * ((√(2 * Real.pi * v'))⁻¹ * Real.exp (-2 / v'))

theorem normalLow_pos {v v' : NNReal} (hv : v ≠ 0) (hv' : v' ≠ 0) : 0 < Spec.normalLow v v' := by
  have h : 0 < (v : ℝ) := by positivity
  have h' : 0 < (v' : ℝ) := by positivity
  unfold Spec.normalLow
  have := Real.pi_pos
  positivity

theorem normal_one_low {v : NNReal} (hv : v ≠ 0) {t : ℝ} (ht : |t| < 2) :
    (√(2 * Real.pi * v))⁻¹ * Real.exp (-2 / v) ≤ (√(2 * Real.pi * v))⁻¹ * Real.exp (-t ^ 2 / (2 * v)) := by
  have h : 0 < (v : ℝ) := by positivity
  refine mul_le_mul_of_nonneg_left (Real.exp_le_exp.2 ?_) (by positivity)
  rw [div_le_div_iff₀ h (by positivity)]
  have ht2 : t ^ 2 ≤ 4 := by
    have := abs_lt.1 ht
    nlinarith
  nlinarith

theorem normalLow_le {v v' : NNReal} (hv : v ≠ 0) (hv' : v' ≠ 0) (w : ℝ × ℝ) (h1 : |w.1| < 2) (h2 : |w.2| < 2) :
    ENNReal.ofReal (Spec.normalLow v v') ≤ Spec.normalWalk v v' w := by
  unfold Spec.normalLow Spec.normalWalk
  rw [ENNReal.ofReal_mul (by positivity)]
  exact mul_le_mul' (ENNReal.ofReal_le_ofReal (normal_one_low hv h1)) (ENNReal.ofReal_le_ofReal (normal_one_low hv' h2))

theorem normal_rate_nonneg {v v' : NNReal} (hv : v ≠ 0) (hv' : v' ≠ 0) {L : ℝ × ℝ → ℝ} (hL : Measurable L) {B : ℝ}
    (hB : ∀ a ∈ Spec.Square, |L a| ≤ B) : 0 ≤ 1 - 4 * Spec.normalLow v v' * Real.exp (-(2 * B)) :=
  rate_nonneg hL (normalWalk_density hv hv').measurable (normalWalk_density hv hv').total hB (normalLow_pos hv hv').le
    (normalLow_le hv hv')

/-- **C196.** The program's walk with a diagonal `covariance`: from any parameters in the square the chain tends to the
posterior at a geometric rate, and the rate is explicit. -/
theorem C196_normal_walk (ph : Phys ℝ ι T) (z : (Fin 2 → ℝ) → ℝ × ℝ) (x : ι → ℝ) {v v' : NNReal} (hv : v ≠ 0) (hv' : v' ≠ 0) {B : ℝ}
    {psi : (Fin 2 → ℝ) → ℝ≥0∞} (hpsi : Measurable fun a : ℝ × ℝ => psi ![a.1, a.2]) (hpsi1 : ∀ th, psi th ≤ 1)
    (hL : Measurable (Spec.logPosterior ph z x)) (hB : ∀ a ∈ Spec.Square, |Spec.logPosterior ph z x a| ≤ B)
    (n : ℕ) {a : ℝ × ℝ} (ha : a ∈ Spec.Square) {s : (Fin 2 → ℝ) × Aux ℝ ι} (hs : Spec.CarriedAt ph z x a s) :
    |(Spec.meanAfter (thetaMove ph z x) (Spec.normalWalk v v') (fun s => psi s.1) n s).toReal -
        (Spec.meanUnder (Spec.logPosterior ph z x) fun a => psi ![a.1, a.2]).toReal| ≤
      (1 - 4 * Spec.normalLow v v' * Real.exp (-(2 * B))) ^ n ∧ 0 < Spec.normalLow v v' := by
  refine ⟨C196_converges ph z x (normalWalk_density hv hv') (normalLow_pos hv hv').le (normalLow_le hv hv') hpsi hpsi1 hL hB ?_ ?_ n ha hs,
    normalLow_pos hv hv'⟩
  · intro w; simp [Spec.normalWalk]
  · intro w; simp [Spec.normalWalk]

/-- A model meeting the hypotheses: the potential is the first parameter, the bound is 2. -/
example : ∃ (ph : Phys ℝ Unit Unit) (z : (Fin 2 → ℝ) → ℝ × ℝ) (x : Unit → ℝ) (s : (Fin 2 → ℝ) × Aux ℝ Unit),
    Measurable (Spec.logPosterior ph z x) ∧ (∀ a ∈ Spec.Square, |Spec.logPosterior ph z x a| ≤ 2) ∧
      Spec.CarriedAt ph z x (1, 1) s ∧ ((1 : ℝ), (1 : ℝ)) ∈ Spec.Square ∧
      Spec.logPosterior ph z x (0, 0) ≠ Spec.logPosterior ph z x (1, 0) := by
  refine ⟨⟨1, fun th _ => th 0, fun _ _ _ => 0, fun _ _ _ => 0, fun _ _ _ _ => 0, fun _ => 0, 1⟩, fun _ => (0, 1), fun _ => 0,
    (![1, 1], ⟨1, fun _ => 0, 0, 1⟩),
    ?_, ?_, ?_, ?_, ?_⟩
  · unfold Spec.logPosterior; simp; fun_prop
  · intro a ha
    have h := ha.1
    simp only [mem_Ico] at h
    simp [Spec.logPosterior, abs_of_nonneg h.1, h.2.le]
  · refine ⟨rfl, by simp, rfl⟩
  · simp [Spec.Square]
  · simp [Spec.logPosterior]

/-- **C196.** With `step_size` 0 (or a zero `covariance`) the parameters never leave their start. -/
theorem C196_still (ph : Phys ℝ ι T) (z : (Fin 2 → ℝ) → ℝ × ℝ) (x : ι → ℝ) {a : ℝ × ℝ} (ha : a ∈ Spec.Square)
    {s : (Fin 2 → ℝ) × Aux ℝ ι} (hs : Spec.CarriedAt ph z x a s) (u : ℝ) : (thetaMove ph z x s (0, 0) u).1 = s.1 := by
  have h := (carried_move ph z x hs (0, 0) u).1
  have hf : fold2 a (0, 0) = a := by
    have h0 := ha.1
    have h1 := ha.2
    simp only [mem_Ico] at h0 h1
    simp [fold2, reflect, not_lt.2 h0.1, not_lt.2 h1.1, not_lt.2 h0.2.le, not_lt.2 h1.2.le]
  have hm : metroStep (Spec.logPosterior ph z x) a (0, 0) u = a := by
    unfold metroStep; rw [hf]; simp
  rw [h, hm, hs.1]

end GeNSIT
