import Mathlib.Analysis.Real.Sqrt
import Mathlib.Analysis.SpecialFunctions.Trigonometric.Arctan
import Mathlib.Tactic.Linarith
import Mathlib.Tactic.FieldSimp
import Mathlib.Tactic.Positivity

/-!
# C150: one-tailed Welch tests

Model of `perform_one_tailed_ttest` and `perform_one_tailed_ttest_using_summaries` (`gensit/utils/math_utils.py:544-657`) with exact
arithmetic.  The distribution function of Student's t (`scipy.stats.t.cdf`) is a parameter `F df x`; `scipy.stats.ttest_ind` is modelled by its
documented formula.
-/

set_option linter.unusedSimpArgs false
set_option linter.unusedVariables false

namespace GeNSIT

/-- A floating point number as far as it matters here. -/
inductive FNum where
  | fin (x : ℝ)
  | posInf
  | negInf
  | nan

/-- The result that is returned (without the sentence that repeats `reject`). -/
structure TResult where
  t : FNum
  p : FNum
  reject : Prop

inductive TErr where
  | valueError
  | zeroDivision
deriving DecidableEq

/-- `numpy.mean`. -/
noncomputable def npMean (l : List ℝ) : ℝ := l.sum / l.length

/-- `numpy.var(…, ddof = 1)`, which `scipy` uses. -/
noncomputable def npVar (l : List ℝ) : ℝ := (l.map fun x => (x - npMean l) ^ 2).sum / (l.length - 1 : ℝ)

/-- The statistic of Welch (`math_utils.py:634-638`; `scipy.stats._stats_py._unequal_var_ttest_denom`). -/
noncomputable def welchT (m1 v1 n1 m2 v2 n2 : ℝ) : ℝ := (m1 - m2) / Real.sqrt (v1 / n1 + v2 / n2)

/-- The degrees of freedom (`math_utils.py:640-643`). -/
noncomputable def welchDf (v1 n1 v2 n2 : ℝ) : ℝ :=
  (v1 / n1 + v2 / n2) ^ 2 / ((v1 / n1) ^ 2 / (n1 - 1) + (v2 / n2) ^ 2 / (n2 - 1))

/-- The quotient `x / 0` of floating point numbers. -/
noncomputable def divZero (x : ℝ) : FNum := if x = 0 then .nan else if 0 < x then .posInf else .negInf

open Classical in
/-- `stats.ttest_ind(sample_a, sample_b, equal_var=False)`: the statistic and the two-tailed p-value.  If both samples are constant the
degrees of freedom are `nan`, which `scipy` replaces by 1, and the statistic is a quotient by zero. -/
noncomputable def ttestInd (F : ℝ → ℝ → ℝ) (a b : List ℝ) : FNum × FNum :=
  if npVar a / a.length + npVar b / b.length = 0 then
    (divZero (npMean a - npMean b), match divZero (npMean a - npMean b) with | .nan => .nan | _ => .fin 0)
  else
    let t := welchT (npMean a) (npVar a) a.length (npMean b) (npVar b) b.length
    (.fin t, .fin (2 * F (welchDf (npVar a) a.length (npVar b) b.length) (-|t|)))

open Classical in
/-- `perform_one_tailed_ttest` (`math_utils.py:544-593`). -/
noncomputable def ttestSamples (F : ℝ → ℝ → ℝ) (a b : List ℝ) (alpha : ℝ) : Except TErr TResult :=
  if a.length < 2 ∨ b.length < 2 then .error .valueError
  else if ¬ (0 < alpha ∧ alpha < 1) then .error .valueError
  else
    match ttestInd F a b with
    | (.fin t, .fin p2) => let p := if t < 0 then p2 / 2 else 1 - p2 / 2; .ok ⟨.fin t, .fin p, p < alpha⟩
    | (.negInf, .fin p2) => .ok ⟨.negInf, .fin (p2 / 2), p2 / 2 < alpha⟩
    | (.posInf, .fin p2) => .ok ⟨.posInf, .fin (1 - p2 / 2), 1 - p2 / 2 < alpha⟩
    | (t, _) => .ok ⟨t, .nan, False⟩

open Classical in
/-- `perform_one_tailed_ttest_using_summaries` (`math_utils.py:595-657`).  `np` says whether the arguments are numpy numbers, whose division
by zero gives `nan` rather than an exception. -/
noncomputable def ttestSummaries (F : ℝ → ℝ → ℝ) (np : Bool) (m1 s1 : ℝ) (n1 : ℕ) (m2 s2 : ℝ) (n2 : ℕ) (alpha : ℝ) : Except TErr TResult :=
  if n1 < 2 ∨ n2 < 2 then .error .valueError
  else if s1 < 0 ∨ s2 < 0 then .error .valueError
  else if ¬ (0 < alpha ∧ alpha < 1) then .error .valueError
  else if s1 ^ 2 / n1 + s2 ^ 2 / n2 = 0 then
    if np then .ok ⟨divZero (m1 - m2), .nan, False⟩ else .error .zeroDivision
  else
    let t := welchT m1 (s1 ^ 2) n1 m2 (s2 ^ 2) n2
    let p := F (welchDf (s1 ^ 2) n1 (s2 ^ 2) n2) t
    .ok ⟨.fin t, .fin p, p < alpha⟩

/-- What is used about the distribution function: it is symmetric and monotone. -/
structure Spec.TDist (F : ℝ → ℝ → ℝ) : Prop where
  symm : ∀ df x, F df (-x) = 1 - F df x
  mono : ∀ df, Monotone (F df)

/-- Student's distribution with one degree of freedom (for examples). -/
noncomputable def exF : ℝ → ℝ → ℝ := fun _ x => 1 / 2 + Real.arctan x / Real.pi

theorem exF_dist : Spec.TDist exF := by
  constructor
  · intro df x; unfold exF; rw [Real.arctan_neg]; ring
  · intro df x y h
    unfold exF
    have := Real.arctan_strictMono.monotone h
    have hp := Real.pi_pos
    have : Real.arctan x / Real.pi ≤ Real.arctan y / Real.pi := by
      rw [div_le_div_iff_of_pos_right hp]; exact this
    linarith

/-- The samples can be compared: at least two observations each, not both constant, and a level between 0 and 1. -/
structure Spec.Comparable (a b : List ℝ) (alpha : ℝ) : Prop where
  a2 : 2 ≤ a.length
  b2 : 2 ≤ b.length
  spread : (∃ x ∈ a, ∃ y ∈ a, x ≠ y) ∨ (∃ x ∈ b, ∃ y ∈ b, x ≠ y)
  alpha0 : 0 < alpha
  alpha1 : alpha < 1

theorem devs_nonneg (l : List ℝ) (m : ℝ) : 0 ≤ (l.map fun x => (x - m) ^ 2).sum := by
  induction l with
  | nil => simp
  | cons x l ih => simp only [List.map_cons, List.sum_cons]; positivity

theorem devs_zero {l : List ℝ} {m : ℝ} (h : (l.map fun x => (x - m) ^ 2).sum = 0) : ∀ x ∈ l, x = m := by
  induction l with
  | nil => simp
  | cons y l ih =>
    simp only [List.map_cons, List.sum_cons] at h
    have h1 := devs_nonneg l m
    have h2 := sq_nonneg (y - m)
    have h3 : (y - m) ^ 2 = 0 := by linarith
    have h4 := ih (by linarith)
    intro x hx
    rcases List.mem_cons.1 hx with rfl | hx
    · have := pow_eq_zero_iff (two_ne_zero) |>.1 h3; linarith
    · exact h4 x hx

theorem npVar_nonneg {l : List ℝ} (h : 2 ≤ l.length) : 0 ≤ npVar l := by
  unfold npVar
  have : (2 : ℝ) ≤ l.length := by exact_mod_cast h
  exact div_nonneg (devs_nonneg _ _) (by linarith)

theorem npVar_pos {l : List ℝ} (h : 2 ≤ l.length) (hs : ∃ x ∈ l, ∃ y ∈ l, x ≠ y) : 0 < npVar l := by
  refine lt_of_le_of_ne (npVar_nonneg h) ?_
  intro hc
  unfold npVar at hc
  have h2 : (2 : ℝ) ≤ l.length := by exact_mod_cast h
  have h0 : (l.map fun x => (x - npMean l) ^ 2).sum = 0 := by
    rcases div_eq_zero_iff.1 hc.symm with h | h
    · exact h
    · linarith
  obtain ⟨x, hx, y, hy, hne⟩ := hs
  exact hne ((devs_zero h0 x hx).trans (devs_zero h0 y hy).symm)

theorem npVar_const {l : List ℝ} (c : ℝ) (hl : l ≠ []) (h : ∀ x ∈ l, x = c) : npMean l = c ∧ npVar l = 0 := by
  have hr : l = List.replicate l.length c := List.eq_replicate_iff.2 ⟨rfl, h⟩
  have hm : npMean l = c := by
    unfold npMean
    have hn : (l.length : ℝ) ≠ 0 := by
      have := List.length_pos_of_ne_nil hl
      positivity
    rw [hr]
    simp only [List.sum_replicate, List.length_replicate, nsmul_eq_mul]
    field_simp
  refine ⟨hm, ?_⟩
  unfold npVar
  rw [hm]
  have : (l.map fun x => (x - c) ^ 2) = l.map fun _ => (0 : ℝ) := by
    apply List.map_congr_left
    intro x hx
    rw [h x hx]; ring
  rw [this]
  simp

theorem se_pos {a b : List ℝ} {alpha : ℝ} (h : Spec.Comparable a b alpha) : 0 < npVar a / a.length + npVar b / b.length := by
  have ha : (0 : ℝ) < a.length := by exact_mod_cast (by have := h.a2; omega)
  have hb : (0 : ℝ) < b.length := by exact_mod_cast (by have := h.b2; omega)
  have h1 := div_nonneg (npVar_nonneg h.a2) ha.le
  have h2 := div_nonneg (npVar_nonneg h.b2) hb.le
  rcases h.spread with hs | hs
  · have := div_pos (npVar_pos h.a2 hs) ha; linarith
  · have := div_pos (npVar_pos h.b2 hs) hb; linarith

/-- Mean, variance, and the statistic and the degrees of freedom of two samples. -/
noncomputable def Spec.sampleMean (l : List ℝ) : ℝ := l.sum / l.length
noncomputable def Spec.sampleVariance (l : List ℝ) : ℝ := (l.map fun x => (x - Spec.sampleMean l) ^ 2).sum / (l.length - 1 : ℝ)
noncomputable def Spec.tOf (a b : List ℝ) : ℝ :=
  (Spec.sampleMean a - Spec.sampleMean b) / Real.sqrt (Spec.sampleVariance a / a.length + Spec.sampleVariance b / b.length)
noncomputable def Spec.dfOf (a b : List ℝ) : ℝ :=
  (Spec.sampleVariance a / a.length + Spec.sampleVariance b / b.length) ^ 2 /
    ((Spec.sampleVariance a / a.length) ^ 2 / (a.length - 1) + (Spec.sampleVariance b / b.length) ^ 2 / (b.length - 1))

theorem tOf_eq (a b : List ℝ) : Spec.tOf a b = welchT (npMean a) (npVar a) a.length (npMean b) (npVar b) b.length := rfl
theorem dfOf_eq (a b : List ℝ) : Spec.dfOf a b = welchDf (npVar a) a.length (npVar b) b.length := rfl

/-- C150: the reported p-value is the probability that a t-distributed variable with the degrees of freedom of Welch and Satterthwaite is at most
the statistic, on both sides of zero; the hypothesis is rejected exactly if it is below the level. -/
theorem C150_one_tailed (F : ℝ → ℝ → ℝ) (hF : Spec.TDist F) (a b : List ℝ) (alpha : ℝ) (h : Spec.Comparable a b alpha) :
    ttestSamples F a b alpha =
      .ok ⟨.fin (Spec.tOf a b), .fin (F (Spec.dfOf a b) (Spec.tOf a b)), F (Spec.dfOf a b) (Spec.tOf a b) < alpha⟩ := by
  have hp : (if Spec.tOf a b < 0 then 2 * F (Spec.dfOf a b) (-|Spec.tOf a b|) / 2 else 1 - 2 * F (Spec.dfOf a b) (-|Spec.tOf a b|) / 2) =
      F (Spec.dfOf a b) (Spec.tOf a b) := by
    split_ifs with ht
    · rw [abs_of_neg ht, neg_neg]; ring
    · rw [abs_of_nonneg (not_lt.1 ht), hF.symm]; ring
  unfold ttestSamples ttestInd
  rw [if_neg (by have := h.a2; have := h.b2; omega), if_neg (by simp [h.alpha0, h.alpha1]), if_neg (se_pos h).ne']
  simp only
  change Except.ok (TResult.mk (.fin (Spec.tOf a b)) (.fin (if Spec.tOf a b < 0 then 2 * F (Spec.dfOf a b) (-|Spec.tOf a b|) / 2 else
    1 - 2 * F (Spec.dfOf a b) (-|Spec.tOf a b|) / 2)) ((if Spec.tOf a b < 0 then 2 * F (Spec.dfOf a b) (-|Spec.tOf a b|) / 2 else
    1 - 2 * F (Spec.dfOf a b) (-|Spec.tOf a b|) / 2) < alpha)) = _
  rw [hp]

theorem exComparable : Spec.Comparable [1, 2] [3, 5, 4] (1 / 20) := by
  refine ⟨by simp, by simp, Or.inl ⟨1, by simp, 2, by simp, by norm_num⟩, by norm_num, by norm_num⟩

/-- C150: both functions agree: applied to the means, standard deviations (`numpy.std(…, ddof = 1)`) and sizes of two samples that are not both
constant, the function for summaries returns what the function for samples returns. -/
theorem C150_agree_partial (F : ℝ → ℝ → ℝ) (hF : Spec.TDist F) (np : Bool) (a b : List ℝ) (alpha : ℝ) (h : Spec.Comparable a b alpha) :
    ttestSummaries F np (Spec.sampleMean a) (Real.sqrt (Spec.sampleVariance a)) a.length (Spec.sampleMean b) (Real.sqrt (Spec.sampleVariance b)) b.length alpha =
      ttestSamples F a b alpha := by
  rw [C150_one_tailed F hF a b alpha h]
  rw [show Spec.sampleMean a = npMean a from rfl, show Spec.sampleMean b = npMean b from rfl, show Spec.sampleVariance a = npVar a from rfl,
    show Spec.sampleVariance b = npVar b from rfl]
  unfold ttestSummaries
  have ea : Real.sqrt (npVar a) ^ 2 = npVar a := Real.sq_sqrt (npVar_nonneg h.a2)
  have eb : Real.sqrt (npVar b) ^ 2 = npVar b := Real.sq_sqrt (npVar_nonneg h.b2)
  rw [if_neg (by have := h.a2; have := h.b2; omega),
    if_neg (by have := Real.sqrt_nonneg (npVar a); have := Real.sqrt_nonneg (npVar b); intro hc; rcases hc with hc | hc <;> linarith),
    if_neg (by simp [h.alpha0, h.alpha1]), ea, eb, if_neg (se_pos h).ne']
  rfl

/-- C150 fails for constant samples: with different means the function for samples rejects with p-value 0, the function for summaries does not
reject (numpy numbers) or raises (Python numbers). -/
theorem C150_constant (F : ℝ → ℝ → ℝ) (a b : List ℝ) (c d alpha : ℝ) (ha : 2 ≤ a.length) (hb : 2 ≤ b.length) (hca : ∀ x ∈ a, x = c)
    (hcb : ∀ x ∈ b, x = d) (hcd : c < d) (h0 : 0 < alpha) (h1 : alpha < 1) :
    ttestSamples F a b alpha = .ok ⟨.negInf, .fin 0, True⟩ ∧
      ttestSummaries F true (Spec.sampleMean a) (Real.sqrt (Spec.sampleVariance a)) a.length (Spec.sampleMean b) (Real.sqrt (Spec.sampleVariance b)) b.length alpha =
        .ok ⟨.negInf, .nan, False⟩ ∧
      ttestSummaries F false (Spec.sampleMean a) (Real.sqrt (Spec.sampleVariance a)) a.length (Spec.sampleMean b) (Real.sqrt (Spec.sampleVariance b)) b.length alpha =
        .error .zeroDivision := by
  rw [show Spec.sampleMean a = npMean a from rfl, show Spec.sampleMean b = npMean b from rfl, show Spec.sampleVariance a = npVar a from rfl,
    show Spec.sampleVariance b = npVar b from rfl]
  obtain ⟨ma, va⟩ := npVar_const c (by rintro rfl; simp at ha) hca
  obtain ⟨mb, vb⟩ := npVar_const d (by rintro rfl; simp at hb) hcb
  have hd : divZero (c - d) = .negInf := by
    unfold divZero
    rw [if_neg (by intro hc; linarith), if_neg (by linarith)]
  refine ⟨?_, ?_, ?_⟩
  · unfold ttestSamples ttestInd
    rw [if_neg (by omega), if_neg (by simp [h0, h1]), va, vb, ma, mb, if_pos (by simp), hd]
    simp [h0]
  · unfold ttestSummaries
    rw [va, vb, ma, mb, if_neg (by omega), if_neg (by simp), if_neg (by simp [h0, h1]), if_pos (by simp), hd]
    simp
  · unfold ttestSummaries
    rw [va, vb, ma, mb, if_neg (by omega), if_neg (by simp), if_neg (by simp [h0, h1]), if_pos (by simp)]
    simp

/-- C150: agreement in full. -/
def Spec.TTestsAgree : Prop := ∀ (F : ℝ → ℝ → ℝ), Spec.TDist F → ∀ (np : Bool) (a b : List ℝ) (alpha : ℝ),
  ttestSummaries F np (Spec.sampleMean a) (Real.sqrt (Spec.sampleVariance a)) a.length (Spec.sampleMean b) (Real.sqrt (Spec.sampleVariance b)) b.length alpha = ttestSamples F a b alpha

theorem C150_agree_false : ¬ Spec.TTestsAgree := by
  intro h
  have h1 := h exF exF_dist false [0, 0] [1, 1] (1 / 20)
  obtain ⟨e1, _, e3⟩ := C150_constant exF [0, 0] [1, 1] 0 1 (1 / 20) (by simp) (by simp) (by simp) (by simp) (by norm_num) (by norm_num)
    (by norm_num)
  rw [e1, e3] at h1
  cases h1

/-- C150: the degrees of freedom are at least those of the smaller sample and at most those of both together. -/
theorem C150_degrees (a b : List ℝ) (alpha : ℝ) (h : Spec.Comparable a b alpha) :
    min (a.length - 1 : ℝ) (b.length - 1) ≤ Spec.dfOf a b ∧ Spec.dfOf a b ≤ a.length + b.length - 2 := by
  have hse := se_pos h
  simp only [dfOf_eq]; unfold welchDf
  have ha : (2 : ℝ) ≤ a.length := by exact_mod_cast h.a2
  have hb : (2 : ℝ) ≤ b.length := by exact_mod_cast h.b2
  have hx : 0 ≤ npVar a / a.length := div_nonneg (npVar_nonneg h.a2) (by linarith)
  have hy : 0 ≤ npVar b / b.length := div_nonneg (npVar_nonneg h.b2) (by linarith)
  generalize npVar a / a.length = x at *
  generalize npVar b / b.length = y at *
  generalize hm : (a.length : ℝ) - 1 = m
  generalize hn : (b.length : ℝ) - 1 = n
  have hm1 : 1 ≤ m := by linarith
  have hn1 : 1 ≤ n := by linarith
  have hD : 0 < x ^ 2 / m + y ^ 2 / n := by
    rcases lt_or_eq_of_le hx with h' | h'
    · have : 0 < x ^ 2 / m := by positivity
      have : 0 ≤ y ^ 2 / n := by positivity
      linarith
    · have hy' : 0 < y := by linarith
      have : 0 < y ^ 2 / n := by positivity
      have : 0 ≤ x ^ 2 / m := by positivity
      linarith
  constructor
  · rw [le_div_iff₀ hD]
    have h1 : min m n * (x ^ 2 / m) ≤ x ^ 2 := by
      rw [mul_div_assoc']
      rw [div_le_iff₀ (by linarith)]
      have := min_le_left m n
      nlinarith [sq_nonneg x]
    have h2 : min m n * (y ^ 2 / n) ≤ y ^ 2 := by
      rw [mul_div_assoc']
      rw [div_le_iff₀ (by linarith)]
      have := min_le_right m n
      nlinarith [sq_nonneg y]
    have h3 : 0 ≤ x * y := mul_nonneg hx hy
    nlinarith
  · have e : (a.length : ℝ) + b.length - 2 = m + n := by linarith
    rw [e, div_le_iff₀ hD]
    have hm0 : m ≠ 0 := by linarith
    have hn0 : n ≠ 0 := by linarith
    have : (m + n) * (x ^ 2 / m + y ^ 2 / n) - (x + y) ^ 2 = (n * x - m * y) ^ 2 / (m * n) := by
      field_simp; ring
    have h2 : 0 ≤ (n * x - m * y) ^ 2 / (m * n) := by positivity
    linarith

theorem tdf_swap (a b : List ℝ) : Spec.dfOf b a = Spec.dfOf a b ∧ Spec.tOf b a = - Spec.tOf a b := by
  constructor
  · simp only [dfOf_eq]; unfold welchDf
    rw [add_comm (npVar b / b.length), add_comm ((npVar b / b.length) ^ 2 / _)]
  · simp only [tOf_eq]; unfold welchT
    rw [add_comm (npVar b / b.length), ← neg_div]
    congr 1
    ring

theorem Spec.Comparable.swap {a b : List ℝ} {alpha : ℝ} (h : Spec.Comparable a b alpha) : Spec.Comparable b a alpha :=
  ⟨h.b2, h.a2, h.spread.symm, h.alpha0, h.alpha1⟩

/-- C150: exchanging the samples gives the negated statistic and the complementary p-value. -/
theorem C150_swap (F : ℝ → ℝ → ℝ) (hF : Spec.TDist F) (a b : List ℝ) (alpha : ℝ) (h : Spec.Comparable a b alpha) :
    ∃ t p : ℝ, ttestSamples F a b alpha = .ok ⟨.fin t, .fin p, p < alpha⟩ ∧
      ttestSamples F b a alpha = .ok ⟨.fin (-t), .fin (1 - p), 1 - p < alpha⟩ := by
  refine ⟨_, _, C150_one_tailed F hF a b alpha h, ?_⟩
  rw [C150_one_tailed F hF b a alpha h.swap, (tdf_swap a b).1, (tdf_swap a b).2, hF.symm]

/-- C150: at a level of at most one half the hypothesis is rejected only if the first mean is smaller than the second; so it is never rejected for
both orders. -/
theorem C150_direction (F : ℝ → ℝ → ℝ) (hF : Spec.TDist F) (a b : List ℝ) (alpha : ℝ) (h : Spec.Comparable a b alpha) (ha : alpha ≤ 1 / 2)
    (r : TResult) (hr : ttestSamples F a b alpha = .ok r) (hrej : r.reject) : Spec.sampleMean a < Spec.sampleMean b := by
  change npMean a < npMean b
  rw [C150_one_tailed F hF a b alpha h] at hr
  cases hr
  simp only at hrej
  have h0 : F (Spec.dfOf a b) 0 = 1 / 2 := by
    have := hF.symm (Spec.dfOf a b) 0
    rw [neg_zero] at this
    linarith
  have ht : Spec.tOf a b < 0 := by
    by_contra hc
    have := hF.mono (Spec.dfOf a b) (not_lt.1 hc)
    linarith
  rw [tOf_eq] at ht; unfold welchT at ht
  rw [div_neg_iff] at ht
  have hs : 0 < Real.sqrt (npVar a / a.length + npVar b / b.length) := Real.sqrt_pos.2 (se_pos h)
  rcases ht with ⟨_, h2⟩ | ⟨h1, _⟩
  · linarith
  · linarith

theorem tdf_unit (a b : List ℝ) (alpha c s : ℝ) (hs : 0 < s) (h : Spec.Comparable a b alpha) :
    Spec.tOf (a.map fun x => c + s * x) (b.map fun x => c + s * x) = Spec.tOf a b ∧
      Spec.dfOf (a.map fun x => c + s * x) (b.map fun x => c + s * x) = Spec.dfOf a b := by
  have hsum : ∀ l : List ℝ, (l.map fun x => c + s * x).sum = l.length * c + s * l.sum := by
    intro l
    induction l with
    | nil => simp
    | cons x l ih => simp only [List.map_cons, List.sum_cons, ih, List.length_cons]; push_cast; ring
  have hmean : ∀ l : List ℝ, 2 ≤ l.length → npMean (l.map fun x => c + s * x) = c + s * npMean l := by
    intro l hl
    have hn : (l.length : ℝ) ≠ 0 := by have : 0 < l.length := by omega
                                       positivity
    unfold npMean
    rw [hsum, List.length_map]
    field_simp
  have hvar : ∀ l : List ℝ, 2 ≤ l.length → npVar (l.map fun x => c + s * x) = s ^ 2 * npVar l := by
    intro l hl
    unfold npVar
    rw [hmean l hl, List.length_map, List.map_map]
    have : ∀ k : List ℝ, (k.map ((fun x => (x - (c + s * npMean l)) ^ 2) ∘ fun x => c + s * x)).sum =
        s ^ 2 * (k.map fun x => (x - npMean l) ^ 2).sum := by
      intro k
      induction k with
      | nil => simp
      | cons x k ih => simp only [List.map_cons, List.sum_cons, ih, Function.comp]; ring
    rw [this]
    ring
  have hse := se_pos h
  constructor
  · simp only [tOf_eq]; unfold welchT
    rw [hmean a h.a2, hmean b h.b2, hvar a h.a2, hvar b h.b2, List.length_map, List.length_map]
    have e : s ^ 2 * npVar a / a.length + s ^ 2 * npVar b / b.length = s ^ 2 * (npVar a / a.length + npVar b / b.length) := by ring
    rw [e, Real.sqrt_mul (by positivity), Real.sqrt_sq hs.le]
    have hq : Real.sqrt (npVar a / a.length + npVar b / b.length) ≠ 0 := (Real.sqrt_pos.2 hse).ne'
    field_simp
    ring
  · simp only [dfOf_eq]; unfold welchDf
    rw [hvar a h.a2, hvar b h.b2, List.length_map, List.length_map]
    have e1 : s ^ 2 * npVar a / a.length = s ^ 2 * (npVar a / a.length) := by ring
    have e2 : s ^ 2 * npVar b / b.length = s ^ 2 * (npVar b / b.length) := by ring
    rw [e1, e2]
    generalize npVar a / a.length = x
    generalize npVar b / b.length = y
    have e3 : (s ^ 2 * x + s ^ 2 * y) ^ 2 = s ^ 4 * (x + y) ^ 2 := by ring
    have e4 : (s ^ 2 * x) ^ 2 / (a.length - 1 : ℝ) + (s ^ 2 * y) ^ 2 / (b.length - 1 : ℝ) =
        s ^ 4 * (x ^ 2 / (a.length - 1 : ℝ) + y ^ 2 / (b.length - 1 : ℝ)) := by ring
    rw [e3, e4, mul_div_mul_left _ _ (by positivity)]

/-- C150: the result does not depend on the unit: shifting both samples and scaling them by a positive factor changes nothing that is returned. -/
theorem C150_unit (F : ℝ → ℝ → ℝ) (hF : Spec.TDist F) (a b : List ℝ) (alpha c s : ℝ) (hs : 0 < s) (h : Spec.Comparable a b alpha) :
    ttestSamples F (a.map fun x => c + s * x) (b.map fun x => c + s * x) alpha = ttestSamples F a b alpha := by
  have h' : Spec.Comparable (a.map fun x => c + s * x) (b.map fun x => c + s * x) alpha := by
    have key : ∀ l : List ℝ, (∃ x ∈ l, ∃ y ∈ l, x ≠ y) → ∃ x ∈ l.map (fun x => c + s * x), ∃ y ∈ l.map (fun x => c + s * x), x ≠ y := by
      rintro l ⟨x, hx, y, hy, hne⟩
      refine ⟨_, List.mem_map_of_mem hx, _, List.mem_map_of_mem hy, ?_⟩
      intro he
      apply hne
      have : s * x = s * y := by linarith
      exact mul_left_cancel₀ hs.ne' this
    exact ⟨by simpa using h.a2, by simpa using h.b2, h.spread.imp (key a) (key b), h.alpha0, h.alpha1⟩
  rw [C150_one_tailed F hF _ _ alpha h', C150_one_tailed F hF a b alpha h, (tdf_unit a b alpha c s hs h).1, (tdf_unit a b alpha c s hs h).2]

/-- C150: exactly the invalid inputs are refused. -/
theorem C150_refused (F : ℝ → ℝ → ℝ) (a b : List ℝ) (alpha : ℝ) :
    ttestSamples F a b alpha = .error .valueError ↔ a.length < 2 ∨ b.length < 2 ∨ alpha ≤ 0 ∨ 1 ≤ alpha := by
  unfold ttestSamples
  by_cases h1 : a.length < 2 ∨ b.length < 2
  · rw [if_pos h1]
    simp only [true_iff]
    rcases h1 with h | h
    · exact Or.inl h
    · exact Or.inr (Or.inl h)
  rw [if_neg h1]
  by_cases h2 : 0 < alpha ∧ alpha < 1
  · rw [if_neg (not_not.2 h2)]
    constructor
    · intro h
      exfalso
      revert h
      split <;> simp
    · intro h
      exfalso
      obtain ⟨h3, h4⟩ := h2
      rw [not_or] at h1
      rcases h with h | h | h | h
      · exact h1.1 h
      · exact h1.2 h
      · linarith
      · linarith
  · rw [if_pos h2]
    simp only [true_iff]
    rw [not_and_or, not_lt, not_lt] at h2
    rcases h2 with h | h
    · exact Or.inr (Or.inr (Or.inl h))
    · exact Or.inr (Or.inr (Or.inr h))

example : ∃ r, ttestSamples exF [1, 2] [3, 5, 4] (1 / 20) = .ok r := ⟨_, C150_one_tailed exF exF_dist _ _ _ exComparable⟩

example := C150_agree_partial exF exF_dist true _ _ _ exComparable
example := C150_degrees _ _ _ exComparable
example := C150_swap exF exF_dist _ _ _ exComparable
example := C150_unit exF exF_dist _ _ _ 7 3 (by norm_num) exComparable
example := C150_direction exF exF_dist _ _ _ exComparable (by norm_num)

end GeNSIT
