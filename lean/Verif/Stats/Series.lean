import Mathlib.Analysis.SpecialFunctions.Pow.Real
import Mathlib.Analysis.SpecialFunctions.Pow.Asymptotics
import Mathlib.MeasureTheory.Measure.Lebesgue.Basic
import Mathlib.Algebra.BigOperators.Field

/-!
# C77, C78: stopping times and the truncated series
-/

set_option linter.unusedSimpArgs false

namespace GeNSIT

open MeasureTheory

/-! ## Specification -/

namespace Spec

/-- Average of the first `i + 1` weights. -/
noncomputable def meanWeight (w : List ℝ) (i : ℕ) : ℝ :=
  ((w.take (i + 1)).map Real.exp).sum / (i + 1)

/-- The debiased estimate of `1/z` truncated at `N`: `Y₀ + ∑_{i=1}^{N} (Yᵢ - Yᵢ₋₁) / P(N ≥ i)` where `Yᵢ` is
one over the average of the first `i + 1` weights and `P(N ≥ i) = i^{-k}`. -/
noncomputable def debiased (w : List ℝ) (N : ℕ) (k : ℝ) : ℝ :=
  1 / meanWeight w 0 + ∑ i ∈ Finset.range N,
    (1 / meanWeight w (i + 1) - 1 / meanWeight w i) * ((i + 1 : ℕ) : ℝ) ^ k

end Spec

/-! ## Model -/

/-- The inner loop of `generate_stopping_times` (probability_utils.py:249-252) with a bound on the number of
turns: `none` means that the loop is still running. -/
noncomputable def stopLoop (k u : ℝ) : ℕ → ℕ → Option ℕ
  | 0, _ => none
  | f + 1, n => if u < ((n + 1 : ℕ) : ℝ) ^ (-k) then stopLoop k u f (n + 1) else some n

/-- One stopping time, from one uniform draw (probability_utils.py:248-253). -/
noncomputable def stoppingTime (k u : ℝ) (fuel : ℕ) : Option ℕ := stopLoop k u fuel 1

/-- `ln_Y` (probability_utils.py:261-263).  `torch.range(1, N+2)` includes its end point, so there are
`N + 2` entries, indices `0..N+1`; the loop subtracts the log of the partial sum for `i = 0..N` only. -/
noncomputable def lnY (w : List ℝ) (N i : ℕ) : ℝ :=
  if i ≤ N then Real.log ((i + 1 : ℕ) : ℝ) - Real.log ((w.take (i + 1)).map Real.exp).sum
  else Real.log ((i + 1 : ℕ) : ℝ)

/-- `ln_Y_pos` (probability_utils.py:265): the prepended zero shifts the powers by one. -/
noncomputable def lnYpos (w : List ℝ) (N : ℕ) (k : ℝ) (i : ℕ) : ℝ :=
  lnY w N i + if i = 0 then 0 else k * Real.log (i : ℝ)

/-- `ln_Y_neg` (probability_utils.py:266). -/
noncomputable def lnYneg (w : List ℝ) (N : ℕ) (k : ℝ) (i : ℕ) : ℝ :=
  lnY w N i + k * Real.log ((i + 1 : ℕ) : ℝ)

/-- `positive_sum` (probability_utils.py:269). -/
noncomputable def posSum (w : List ℝ) (N : ℕ) (k : ℝ) : ℝ :=
  Real.log (∑ i ∈ Finset.range (N + 2), Real.exp (lnYpos w N k i))

/-- `negative_sum` (probability_utils.py:270). -/
noncomputable def negSum (w : List ℝ) (N : ℕ) (k : ℝ) : ℝ :=
  Real.log (∑ i ∈ Finset.range (N + 1), Real.exp (lnYneg w N k i))

/-- `compute_truncated_infinite_series` (probability_utils.py:256-299): logarithm of the magnitude and sign.
`log 0` is minus infinity, which the code answers with an exception.  Exact reals. -/
noncomputable def truncatedSeries (w : List ℝ) (N : ℕ) (k : ℝ) : Option (ℝ × ℝ) :=
  let p := posSum w N k
  let q := negSum w N k
  if q ≤ p then
    if 1 - Real.exp (q - p) = 0 then none else some (p + Real.log (1 - Real.exp (q - p)), 1)
  else
    if 1 - Real.exp (p - q) = 0 then none else some (q + Real.log (1 - Real.exp (p - q)), -1)

/-! ## C77 -/

theorem stopLoop_spec (k u : ℝ) (fuel n0 n : ℕ) (h : stopLoop k u fuel n0 = some n) :
    n0 ≤ n ∧ ((n + 1 : ℕ) : ℝ) ^ (-k) ≤ u ∧ ∀ m, n0 ≤ m → m < n → u < ((m + 1 : ℕ) : ℝ) ^ (-k) := by
  induction fuel generalizing n0 with
  | zero => cases h
  | succ f ih =>
    unfold stopLoop at h
    split at h
    · next hlt =>
      obtain ⟨h1, h2, h3⟩ := ih (n0 + 1) h
      refine ⟨by omega, h2, ?_⟩
      intro m hm hmn
      rcases Nat.eq_or_lt_of_le hm with rfl | hm
      · exact hlt
      · exact h3 m hm hmn
    · next hge =>
      cases h
      exact ⟨le_rfl, not_lt.1 hge, fun m h1 h2 => by omega⟩

theorem stopLoop_reach (k u : ℝ) (n n0 : ℕ) (h0 : n0 ≤ n) (h1 : ((n + 1 : ℕ) : ℝ) ^ (-k) ≤ u)
    (h2 : ∀ m, n0 ≤ m → m < n → u < ((m + 1 : ℕ) : ℝ) ^ (-k)) :
    stopLoop k u (n - n0 + 1) n0 = some n := by
  obtain ⟨d, rfl⟩ := Nat.exists_eq_add_of_le h0
  induction d generalizing n0 with
  | zero =>
    rw [show n0 + 0 - n0 + 1 = 0 + 1 by omega]
    unfold stopLoop
    rw [if_neg (not_lt.2 h1)]
    rfl
  | succ d ih =>
    rw [show n0 + (d + 1) - n0 + 1 = (d + 1) + 1 by omega]
    unfold stopLoop
    rw [if_pos (h2 n0 le_rfl (by omega))]
    have := ih (n0 + 1) (by omega)
      (by rw [show n0 + 1 + d = n0 + (d + 1) by omega]; exact h1)
      (fun m ha hb => h2 m (by omega) (by omega))
    rw [show n0 + 1 + d - (n0 + 1) + 1 = d + 1 by omega] at this
    rw [this]
    congr 1
    omega

/-- **C77.**  A stopping time that is returned is the first `n ≥ 1` with `(n+1)^{-k} ≤ u`. -/
theorem C77_least (k u : ℝ) (fuel n : ℕ) (h : stoppingTime k u fuel = some n) :
    IsLeast {m : ℕ | 1 ≤ m ∧ ((m + 1 : ℕ) : ℝ) ^ (-k) ≤ u} n := by
  obtain ⟨h1, h2, h3⟩ := stopLoop_spec k u fuel 1 n h
  refine ⟨⟨h1, h2⟩, ?_⟩
  rintro m ⟨hm1, hm2⟩
  by_contra hc
  exact absurd (h3 m hm1 (by omega)) (not_lt.2 hm2)

/-- **C77.**  For a positive power the loop ends for every positive draw. -/
theorem C77_terminates (k u : ℝ) (hk : 0 < k) (hu : 0 < u) :
    ∃ fuel n, stoppingTime k u fuel = some n := by
  have ht : Filter.Tendsto (fun n : ℕ => ((n + 1 : ℕ) : ℝ) ^ (-k)) Filter.atTop (nhds 0) :=
    (tendsto_rpow_neg_atTop hk).comp
      (tendsto_natCast_atTop_atTop.comp (Filter.tendsto_add_atTop_nat 1))
  have hev := (ht.eventually (gt_mem_nhds hu)).exists_forall_of_atTop
  obtain ⟨n1, hn1⟩ := hev
  have hex : ∃ m, 1 ≤ m ∧ ((m + 1 : ℕ) : ℝ) ^ (-k) ≤ u :=
    ⟨max 1 n1, le_max_left _ _, (hn1 _ (le_max_right _ _)).le⟩
  classical
  let n := Nat.find hex
  have hn := Nat.find_spec hex
  refine ⟨n - 1 + 1, n, stopLoop_reach k u n 1 hn.1 hn.2 ?_⟩
  intro m h1 h2
  have := Nat.find_min hex h2
  rw [not_and] at this
  exact not_le.1 (this h1)

/-- **C77.**  For a draw of exactly zero (which `torch.rand` can return) the loop never ends. -/
theorem C77_zero_diverges (k : ℝ) (fuel : ℕ) : stoppingTime k 0 fuel = none := by
  have : ∀ fuel n, stopLoop k 0 fuel n = none := by
    intro fuel
    induction fuel with
    | zero => intro n; rfl
    | succ f ih =>
      intro n
      unfold stopLoop
      rw [if_pos (Real.rpow_pos_of_pos (by positivity) _), ih]
  exact this fuel 1

/-- **C77.**  The stopping time reaches `i` with probability exactly `i^{-k}`, the weight the series divides
by. -/
theorem C77_law (k : ℝ) (hk : 0 < k) (i : ℕ) (hi : 1 ≤ i) :
    volume {u : ℝ | 0 < u ∧ u < 1 ∧ ∃ fuel n, stoppingTime k u fuel = some n ∧ i ≤ n} =
      ENNReal.ofReal ((i : ℝ) ^ (-k)) := by
  have hanti : ∀ a b : ℕ, 1 ≤ a → a ≤ b → (b : ℝ) ^ (-k) ≤ (a : ℝ) ^ (-k) := by
    intro a b ha hab
    exact Real.rpow_le_rpow_of_nonpos (by exact_mod_cast ha) (by exact_mod_cast hab) (by linarith)
  have hset : {u : ℝ | 0 < u ∧ u < 1 ∧ ∃ fuel n, stoppingTime k u fuel = some n ∧ i ≤ n} =
      Set.Ioo 0 ((i : ℝ) ^ (-k)) := by
    ext u
    simp only [Set.mem_ofPred_eq, Set.mem_Ioo]
    constructor
    · rintro ⟨h0, h1, fuel, n, hs, hin⟩
      refine ⟨h0, ?_⟩
      rcases Nat.eq_or_lt_of_le hi with rfl | hi2
      · simpa using h1
      · obtain ⟨_, _, h3⟩ := stopLoop_spec k u fuel 1 n hs
        have := h3 (i - 1) (by omega) (by omega)
        rwa [show i - 1 + 1 = i by omega] at this
    · rintro ⟨h0, h1⟩
      have hi1 : (i : ℝ) ^ (-k) ≤ 1 := by
        have := hanti 1 i le_rfl hi
        simpa using this
      refine ⟨h0, lt_of_lt_of_le h1 hi1, ?_⟩
      obtain ⟨fuel, n, hs⟩ := C77_terminates k u hk h0
      refine ⟨fuel, n, hs, ?_⟩
      obtain ⟨h2, h3, _⟩ := stopLoop_spec k u fuel 1 n hs
      by_contra hc
      have := hanti (n + 1) i (by omega) (by omega)
      exact absurd (this.trans h3) (not_le.2 h1)
  rw [hset, Real.volume_Ioo, sub_zero]

example : stoppingTime 1 (1 / 4) 10 = some 3 := by
  have := stopLoop_reach 1 (1 / 4) 3 1 (by norm_num)
    (by rw [Real.rpow_neg_one]; norm_num)
    (by intro m h1 h2; rw [Real.rpow_neg_one]; interval_cases m <;> norm_num)
  unfold stoppingTime
  simp only [stopLoop, Real.rpow_neg_one]
  norm_num

/-! ## C78 -/

theorem exp_lnY (w : List ℝ) (N i : ℕ) (hw : w ≠ []) :
    Real.exp (lnY w N i) = if i ≤ N then 1 / Spec.meanWeight w i else ((i + 1 : ℕ) : ℝ) := by
  have hpos : 0 < ((w.take (i + 1)).map Real.exp).sum := by
    cases w with
    | nil => exact absurd rfl hw
    | cons a w =>
      rw [List.take_succ_cons, List.map_cons, List.sum_cons]
      have : 0 ≤ ((w.take i).map Real.exp).sum := by
        apply List.sum_nonneg
        intro x hx
        obtain ⟨y, _, rfl⟩ := List.mem_map.1 hx
        exact Real.exp_nonneg y
      have := Real.exp_pos a
      linarith
  have hi : (0 : ℝ) < ((i + 1 : ℕ) : ℝ) := by positivity
  unfold lnY Spec.meanWeight
  split
  · rw [Real.exp_sub, Real.exp_log hi, Real.exp_log hpos]
    push_cast
    rw [one_div_div]
  · rw [Real.exp_log hi]

theorem exp_k_log (k : ℝ) (i : ℕ) (hi : 0 < i) : Real.exp (k * Real.log (i : ℝ)) = (i : ℝ) ^ k := by
  rw [Real.rpow_def_of_pos (by exact_mod_cast hi), mul_comm]

/-- The signed value encoded by the returned pair. -/
noncomputable def seriesValue (r : ℝ × ℝ) : ℝ := r.2 * Real.exp r.1

theorem truncatedSeries_value (w : List ℝ) (N : ℕ) (k : ℝ) (r : ℝ × ℝ)
    (h : truncatedSeries w N k = some r) :
    seriesValue r = ∑ i ∈ Finset.range (N + 2), Real.exp (lnYpos w N k i) -
      ∑ i ∈ Finset.range (N + 1), Real.exp (lnYneg w N k i) := by
  have hp : 0 < ∑ i ∈ Finset.range (N + 2), Real.exp (lnYpos w N k i) :=
    Finset.sum_pos (fun i _ => Real.exp_pos _) ⟨0, by simp⟩
  have hq : 0 < ∑ i ∈ Finset.range (N + 1), Real.exp (lnYneg w N k i) :=
    Finset.sum_pos (fun i _ => Real.exp_pos _) ⟨0, by simp⟩
  have ep : Real.exp (posSum w N k) = _ := Real.exp_log hp
  have eq : Real.exp (negSum w N k) = _ := Real.exp_log hq
  rw [← ep, ← eq]
  unfold truncatedSeries at h
  simp only at h
  generalize posSum w N k = p at *
  generalize negSum w N k = q at *
  have key : ∀ a b : ℝ, b ≤ a → 1 - Real.exp (b - a) ≠ 0 →
      Real.exp (a + Real.log (1 - Real.exp (b - a))) = Real.exp a - Real.exp b := by
    intro a b hab hne
    have hle : Real.exp (b - a) ≤ 1 := Real.exp_le_one_iff.2 (by linarith)
    have hpos : 0 < 1 - Real.exp (b - a) := lt_of_le_of_ne (by linarith) (Ne.symm hne)
    rw [Real.exp_add, Real.exp_log hpos, mul_sub, mul_one, ← Real.exp_add]
    congr 2
    ring
  split at h
  · next hle =>
    split at h
    · cases h
    · next hne =>
      cases h
      unfold seriesValue
      simp only [one_mul]
      exact key p q hle hne
  · next hlt =>
    split at h
    · cases h
    · next hne =>
      cases h
      unfold seriesValue
      simp only
      rw [key q p (le_of_not_ge hlt) hne]
      ring

/-- The difference of the two sums. -/
theorem series_sums_value (w : List ℝ) (N : ℕ) (k : ℝ) (hw : w ≠ []) :
    ∑ i ∈ Finset.range (N + 2), Real.exp (lnYpos w N k i) - ∑ i ∈ Finset.range (N + 1), Real.exp (lnYneg w N k i) =
      Spec.debiased w N k + (((N + 2 : ℕ) : ℝ) - 1 / Spec.meanWeight w N) * ((N + 1 : ℕ) : ℝ) ^ k := by
  rw [Finset.sum_range_succ']
  have e0 : Real.exp (lnYpos w N k 0) = 1 / Spec.meanWeight w 0 := by
    unfold lnYpos
    rw [if_pos rfl, add_zero, exp_lnY w N 0 hw, if_pos (Nat.zero_le N)]
  have e1 : ∀ i, Real.exp (lnYpos w N k (i + 1)) =
      (if i + 1 ≤ N then 1 / Spec.meanWeight w (i + 1) else ((i + 1 + 1 : ℕ) : ℝ)) *
        ((i + 1 : ℕ) : ℝ) ^ k := by
    intro i
    unfold lnYpos
    rw [if_neg (by omega), Real.exp_add, exp_lnY w N _ hw, exp_k_log k _ (by omega)]
  have e2 : ∀ i, Real.exp (lnYneg w N k i) =
      (if i ≤ N then 1 / Spec.meanWeight w i else ((i + 1 : ℕ) : ℝ)) * ((i + 1 : ℕ) : ℝ) ^ k := by
    intro i
    unfold lnYneg
    rw [Real.exp_add, exp_lnY w N _ hw, exp_k_log k _ (by omega)]
  rw [e0, Finset.sum_congr rfl fun i _ => e1 i, Finset.sum_congr rfl fun i _ => e2 i,
    Finset.sum_range_succ, Finset.sum_range_succ]
  rw [if_neg (by omega), if_pos le_rfl]
  unfold Spec.debiased
  have e3 : ∑ i ∈ Finset.range N, (1 / Spec.meanWeight w (i + 1) - 1 / Spec.meanWeight w i) *
      ((i + 1 : ℕ) : ℝ) ^ k =
      ∑ i ∈ Finset.range N, (if i + 1 ≤ N then 1 / Spec.meanWeight w (i + 1)
        else ((i + 1 + 1 : ℕ) : ℝ)) * ((i + 1 : ℕ) : ℝ) ^ k -
      ∑ i ∈ Finset.range N, (if i ≤ N then 1 / Spec.meanWeight w i else ((i + 1 : ℕ) : ℝ)) *
        ((i + 1 : ℕ) : ℝ) ^ k := by
    rw [← Finset.sum_sub_distrib]
    refine Finset.sum_congr rfl fun i hi => ?_
    rw [Finset.mem_range] at hi
    rw [if_pos (by omega), if_pos (by omega)]
    ring
  rw [e3]
  ring

/-- **C78 (exact behaviour).**  The returned value is the debiased estimate plus one spurious term that
comes from the `N+2`-th entry, which is never divided by a weight. -/
theorem C78_value (w : List ℝ) (N : ℕ) (k : ℝ) (r : ℝ × ℝ) (hw : w ≠ [])
    (h : truncatedSeries w N k = some r) :
    seriesValue r = Spec.debiased w N k +
      (((N + 2 : ℕ) : ℝ) - 1 / Spec.meanWeight w N) * ((N + 1 : ℕ) : ℝ) ^ k := by
  rw [truncatedSeries_value w N k r h, series_sums_value w N k hw]

/-- The debiased estimate is exact when all weights are equal. -/
theorem debiased_const (c : ℝ) (N : ℕ) (k : ℝ) :
    Spec.debiased (List.replicate (N + 1) c) N k = 1 / Real.exp c := by
  have hm : ∀ i, i ≤ N → Spec.meanWeight (List.replicate (N + 1) c) i = Real.exp c := by
    intro i hi
    unfold Spec.meanWeight
    rw [List.take_replicate, min_eq_left (by omega), List.map_replicate, List.sum_replicate,
      nsmul_eq_mul]
    push_cast
    rw [mul_comm, mul_div_assoc, div_self (by positivity), mul_one]
  unfold Spec.debiased
  rw [hm 0 (Nat.zero_le N), Finset.sum_eq_zero, add_zero]
  intro i hi
  rw [Finset.mem_range] at hi
  rw [hm i (by omega), hm (i + 1) (by omega)]
  ring

theorem truncatedSeries_demo : ∃ r, truncatedSeries [0, 0] 1 1 = some r := by
  by_contra hc
  have hnone : truncatedSeries [0, 0] 1 1 = none := by
    cases ht : truncatedSeries [0, 0] 1 1 with
    | none => rfl
    | some r => exact absurd ⟨r, ht⟩ hc
  have heq : posSum [0, 0] 1 1 = negSum [0, 0] 1 1 := by
    unfold truncatedSeries at hnone
    simp only at hnone
    split at hnone
    · split at hnone
      · next _ h1 =>
        have : Real.exp (negSum [0, 0] 1 1 - posSum [0, 0] 1 1) = 1 := by linarith
        rw [Real.exp_eq_one_iff] at this
        linarith
      · cases hnone
    · split at hnone
      · next _ h1 =>
        have : Real.exp (posSum [0, 0] 1 1 - negSum [0, 0] 1 1) = 1 := by linarith
        rw [Real.exp_eq_one_iff] at this
        linarith
      · cases hnone
  have hp : 0 < ∑ i ∈ Finset.range (1 + 2), Real.exp (lnYpos [0, 0] 1 1 i) :=
    Finset.sum_pos (fun i _ => Real.exp_pos _) ⟨0, by simp⟩
  have hq : 0 < ∑ i ∈ Finset.range (1 + 1), Real.exp (lnYneg [0, 0] 1 1 i) :=
    Finset.sum_pos (fun i _ => Real.exp_pos _) ⟨0, by simp⟩
  have hs := Real.log_injOn_pos (Set.mem_Ioi.2 hp) (Set.mem_Ioi.2 hq) heq
  simp only [Finset.sum_range_succ, Finset.sum_range_zero, lnYpos, lnYneg, Real.exp_add,
    exp_lnY [0, 0] 1 _ (by simp), Spec.meanWeight] at hs
  norm_num at hs
  rw [Real.exp_log (by norm_num)] at hs
  norm_num at hs

/-- Two weights equal to one: the function returns, and `C78_value` applies. -/
example : ∃ r, truncatedSeries [0, 0] 1 1 = some r ∧ seriesValue r = 1 + (3 - 1) * 2 := by
  obtain ⟨r, hr⟩ := truncatedSeries_demo
  refine ⟨r, hr, ?_⟩
  have hd : Spec.debiased [0, 0] 1 1 = 1 := by
    have := debiased_const 0 1 1
    simpa using this
  have hm : Spec.meanWeight [0, 0] 1 = 1 := by
    unfold Spec.meanWeight; norm_num
  rw [C78_value [0, 0] 1 1 r (by simp) hr, hd, hm]
  norm_num

/-- **C78 is false**: with two weights equal to one, so `1/z = 1` exactly, the function returns
`1 + 2·2^k`. -/
theorem C78_false :
    ¬ ∀ (w : List ℝ) (N : ℕ) (k : ℝ) (r : ℝ × ℝ), w.length = N + 1 → 0 < k →
      truncatedSeries w N k = some r → seriesValue r = Spec.debiased w N k := by
  intro h
  -- a value is returned for `k = 1`, because the two sums differ
  have hd : Spec.debiased [0, 0] 1 1 = 1 := by
    have := debiased_const 0 1 1
    simpa using this
  have hm : Spec.meanWeight [0, 0] 1 = 1 := by
    unfold Spec.meanWeight; norm_num
  obtain ⟨r, hr⟩ := truncatedSeries_demo
  have h1 := h [0, 0] 1 1 r rfl one_pos hr
  have h2 := C78_value [0, 0] 1 1 r (by simp) hr
  rw [h1, hd, hm] at h2
  norm_num at h2

end GeNSIT
