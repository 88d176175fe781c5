import Mathlib.Data.Fin.VecNotation
import Mathlib.Analysis.SpecialFunctions.Pow.Real
import Mathlib.Algebra.Order.BigOperators.Group.Finset
import Mathlib.Algebra.BigOperators.Field
import Mathlib.Tactic.FieldSimp

/-!
# C82–C84: signed moments, Sorensen similarity, standardised root mean square error
-/

set_option linter.unusedSimpArgs false
set_option linter.unusedSectionVars false

namespace GeNSIT

variable {K ι : Type} [Field K] [LinearOrder K] [IsStrictOrderedRing K] [Fintype ι] [DecidableEq ι]

/-! ## Model -/

/-- `signed_mean` (math_utils.py:458-464) along the sample dimension.  Division by a zero sum of signs (nan in
the code) is left to the hypotheses of the theorems. -/
def signedMean (x s : ι → K) : K := (∑ i, x i * s i) / ∑ i, s i

/-- `signed_var` (math_utils.py:466-473). -/
def signedVar (x s : ι → K) : K := (∑ i, x i ^ 2 * s i) / (∑ i, s i) - signedMean x s ^ 2

/-- The cells `ssi` averages over: inside the mask, and with a ratio that is not `0/0`
(math_utils.py:268-281; `mean` skips nan).  Tables of non-negative numbers. -/
def ssiCells (p g : ι → K) (mask : ι → Bool) : Finset ι :=
  Finset.univ.filter fun c => mask c = true ∧ g c + p c ≠ 0

/-- `ssi` (math_utils.py:247-283); `none` is nan (no cell left). -/
def ssi (p g : ι → K) (mask : ι → Bool) : Option K :=
  if (ssiCells p g mask).card = 0 then none
  else some ((∑ c ∈ ssiCells p g mask, 2 * min (g c) (p c) / (g c + p c)) / (ssiCells p g mask).card)

/-- `srmse` (math_utils.py:209-245) for `M` samples: the result for sample `m`.  Squared errors are summed per
sample, but both counts `(~np.isnan(..)).sum()` run over all samples and cells. -/
noncomputable def srmse (M : ℕ) (p : Fin M → ι → ℝ) (g : ι → ℝ) (mask : ι → Bool) (m : Fin M) : ℝ :=
  let cells := Finset.univ.filter fun c => mask c = true
  let count : ℝ := ∑ _k : Fin M, ∑ _c ∈ cells, (1 : ℝ)
  Real.sqrt ((∑ c ∈ cells, (p m c - g c) ^ 2) / count) / ((∑ c ∈ cells, g c) / count)

/-! ## Specification -/

namespace Spec

/-- Arithmetic mean over the index type. -/
def mean (x : ι → K) : K := (∑ i, x i) / Fintype.card ι

/-- Standardised root mean square error of one table on a set of cells. -/
noncomputable def srmse (p g : ι → ℝ) (cells : Finset ι) : ℝ :=
  Real.sqrt ((∑ c ∈ cells, (p c - g c) ^ 2) / cells.card) / ((∑ c ∈ cells, g c) / cells.card)

end Spec

/-! ## C82 -/

/-- **C82.**  The signed mean commutes with affine changes of the data; in particular it of a constant is that
constant. -/
theorem C82_mean_affine (x s : ι → K) (a b : K) (hs : ∑ i, s i ≠ 0) :
    signedMean (fun i => a * x i + b) s = a * signedMean x s + b := by
  unfold signedMean
  have : ∑ i, (a * x i + b) * s i = a * ∑ i, x i * s i + b * ∑ i, s i := by
    rw [Finset.mul_sum, Finset.mul_sum, ← Finset.sum_add_distrib]
    exact Finset.sum_congr rfl fun i _ => by ring
  rw [this]
  field_simp

/-- **C82.**  The signed variance ignores shifts and scales quadratically. -/
theorem C82_var_affine (x s : ι → K) (a b : K) (hs : ∑ i, s i ≠ 0) :
    signedVar (fun i => a * x i + b) s = a ^ 2 * signedVar x s := by
  unfold signedVar
  rw [C82_mean_affine x s a b hs]
  have : ∑ i, (a * x i + b) ^ 2 * s i =
      a ^ 2 * ∑ i, x i ^ 2 * s i + 2 * a * b * ∑ i, x i * s i + b ^ 2 * ∑ i, s i := by
    rw [Finset.mul_sum, Finset.mul_sum, Finset.mul_sum, ← Finset.sum_add_distrib,
      ← Finset.sum_add_distrib]
    exact Finset.sum_congr rfl fun i _ => by ring
  rw [this]
  unfold signedMean
  field_simp
  ring

/-- **C82.**  The signs only matter up to a common factor. -/
theorem C82_sign_flip (x s : ι → K) (c : K) (hc : c ≠ 0) :
    signedMean x (fun i => c * s i) = signedMean x s ∧ signedVar x (fun i => c * s i) = signedVar x s := by
  have h : ∀ y : ι → K, (∑ i, y i * (c * s i)) = c * ∑ i, y i * s i := by
    intro y
    rw [Finset.mul_sum]
    exact Finset.sum_congr rfl fun i _ => by ring
  have hm : signedMean x (fun i => c * s i) = signedMean x s := by
    unfold signedMean
    rw [h, ← Finset.mul_sum, mul_div_mul_left _ _ hc]
  refine ⟨hm, ?_⟩
  unfold signedVar
  rw [hm, h fun i => x i ^ 2, ← Finset.mul_sum, mul_div_mul_left _ _ hc]

/-- **C82.**  When all samples have the same sign the moments are the ordinary mean and the ordinary
(population) variance, which is not negative. -/
theorem C82_same_sign (x : ι → K) (c : K) (hc : c ≠ 0) [Nonempty ι] :
    signedMean x (fun _ => c) = Spec.mean x ∧
      signedVar x (fun _ => c) = Spec.mean (fun i => (x i - Spec.mean x) ^ 2) ∧
      0 ≤ signedVar x (fun _ => c) := by
  have hn : (Fintype.card ι : K) ≠ 0 := Nat.cast_ne_zero.2 Fintype.card_ne_zero
  have hsum : ∑ _i : ι, c = Fintype.card ι * c := by
    rw [Finset.sum_const, Finset.card_univ, nsmul_eq_mul]
  have hm : signedMean x (fun _ => c) = Spec.mean x := by
    unfold signedMean Spec.mean
    rw [hsum, ← Finset.sum_mul, mul_div_mul_right _ _ hc]
  have hv : signedVar x (fun _ => c) = Spec.mean (fun i => (x i - Spec.mean x) ^ 2) := by
    unfold signedVar
    rw [hm, hsum, ← Finset.sum_mul, mul_div_mul_right _ _ hc]
    have h1 : ∑ i, (x i - Spec.mean x) ^ 2 =
        ∑ i, x i ^ 2 - 2 * Spec.mean x * ∑ i, x i + Fintype.card ι * Spec.mean x ^ 2 := by
      have : ∀ i, (x i - Spec.mean x) ^ 2 = x i ^ 2 - 2 * Spec.mean x * x i + Spec.mean x ^ 2 :=
        fun i => by ring
      rw [Finset.sum_congr rfl fun i _ => this i, Finset.sum_add_distrib, Finset.sum_sub_distrib,
        Finset.mul_sum, Finset.sum_const, Finset.card_univ, nsmul_eq_mul]
    have h2 : ∑ i, x i = Fintype.card ι * Spec.mean x := by
      unfold Spec.mean; field_simp
    conv_rhs => unfold Spec.mean
    rw [show (∑ i, x i) / (Fintype.card ι : K) = Spec.mean x from rfl, h1, h2]
    field_simp
    ring
  refine ⟨hm, hv, ?_⟩
  rw [hv]
  unfold Spec.mean
  exact div_nonneg (Finset.sum_nonneg fun i _ => sq_nonneg _) (Nat.cast_nonneg _)

/-- **C82.**  With mixed signs the returned "variance" can be negative. -/
theorem C82_var_negative : ∃ x s : Fin 3 → ℚ, (∀ i, s i = 1 ∨ s i = -1) ∧ signedVar x s < 0 :=
  ⟨![0, 0, 1], ![1, 1, -1], by decide +kernel, by decide +kernel⟩

example : ∑ i, (![1, 1, -1] : Fin 3 → ℚ) i ≠ 0 := by decide +kernel

/-! ## C83 -/

theorem ssi_ratio_mem {p g : K} (hp : 0 ≤ p) (hg : 0 ≤ g) (h : g + p ≠ 0) :
    0 ≤ 2 * min g p / (g + p) ∧ 2 * min g p / (g + p) ≤ 1 ∧ (2 * min g p / (g + p) = 1 ↔ p = g) := by
  have hpos : 0 < g + p := lt_of_le_of_ne (add_nonneg hg hp) (Ne.symm h)
  refine ⟨div_nonneg (mul_nonneg (by norm_num) (le_min hg hp)) hpos.le, ?_, ?_⟩
  · rw [div_le_one hpos]
    have h1 := min_le_left g p
    have h2 := min_le_right g p
    linarith
  · rw [div_eq_one_iff_eq h]
    constructor
    · intro e
      rcases le_total g p with hle | hle
      · rw [min_eq_left hle] at e; linarith
      · rw [min_eq_right hle] at e; linarith
    · rintro rfl
      rw [min_self]; ring

/-- **C83.**  The Sorensen index is undefined exactly when every cell in the mask is zero in both tables. -/
theorem C83_undefined (p g : ι → K) (mask : ι → Bool) (hp : ∀ c, 0 ≤ p c) (hg : ∀ c, 0 ≤ g c) :
    ssi p g mask = none ↔ ∀ c, mask c = true → p c = 0 ∧ g c = 0 := by
  unfold ssi
  rw [ite_eq_left_iff]
  simp only [reduceCtorEq, imp_false, not_not, Finset.card_eq_zero, ssiCells, Finset.filter_eq_empty_iff,
    Finset.mem_univ, true_imp_iff, not_and]
  refine forall_congr' fun c => imp_congr_right fun _ => ?_
  constructor
  · intro h
    have h1 := hp c
    have h2 := hg c
    constructor <;> linarith
  · rintro ⟨h1, h2⟩
    rw [h1, h2, add_zero]

/-- **C83.**  When defined it lies between zero and one, and is one exactly when the tables agree on the
mask. -/
theorem C83_range (p g : ι → K) (mask : ι → Bool) (hp : ∀ c, 0 ≤ p c) (hg : ∀ c, 0 ≤ g c) (v : K)
    (h : ssi p g mask = some v) :
    0 ≤ v ∧ v ≤ 1 ∧ (v = 1 ↔ ∀ c, mask c = true → p c = g c) := by
  unfold ssi at h
  split at h
  · cases h
  · next hne =>
    cases h
    set S := ssiCells p g mask with hS
    have hmem : ∀ c, c ∈ S ↔ mask c = true ∧ g c + p c ≠ 0 := by
      intro c; simp [hS, ssiCells]
    have hcard : (0 : K) < S.card := by exact_mod_cast Nat.pos_of_ne_zero hne
    have hr : ∀ c ∈ S, 0 ≤ 2 * min (g c) (p c) / (g c + p c) ∧
        2 * min (g c) (p c) / (g c + p c) ≤ 1 ∧
        (2 * min (g c) (p c) / (g c + p c) = 1 ↔ p c = g c) :=
      fun c hc => ssi_ratio_mem (hp c) (hg c) ((hmem c).1 hc).2
    have hsum1 : ∑ c ∈ S, (1 : K) = S.card := by simp
    refine ⟨div_nonneg (Finset.sum_nonneg fun c hc => (hr c hc).1) hcard.le, ?_, ?_⟩
    · rw [div_le_one hcard, ← hsum1]
      exact Finset.sum_le_sum fun c hc => (hr c hc).2.1
    · rw [div_eq_one_iff_eq hcard.ne', ← hsum1,
        Finset.sum_eq_sum_iff_of_le fun c hc => (hr c hc).2.1]
      constructor
      · intro h c hm
        by_cases hz : g c + p c = 0
        · have h1 := hp c
          have h2 := hg c
          have h3 : p c = 0 := by linarith
          have h4 : g c = 0 := by linarith
          rw [h3, h4]
        · have hc : c ∈ S := (hmem c).2 ⟨hm, hz⟩
          exact (hr c hc).2.2.1 (h c hc)
      · intro h c hc
        exact (hr c hc).2.2.2 (h c ((hmem c).1 hc).1)

/-- **C83.**  Symmetric in the two tables. -/
theorem C83_symm (p g : ι → K) (mask : ι → Bool) : ssi p g mask = ssi g p mask := by
  have h : ssiCells p g mask = ssiCells g p mask := by
    unfold ssiCells
    refine Finset.filter_congr fun c _ => ?_
    rw [add_comm]
  unfold ssi
  rw [h]
  simp only [min_comm, add_comm]

example : ssi (![2, 0, 1] : Fin 3 → ℚ) ![1, 0, 1] (fun _ => true) = some (5 / 6) := by decide +kernel

/-! ## C84 -/

/-- **C84 (exact behaviour).**  With `M` samples the returned value is `√M` times the standardised root mean
square error of each sample. -/
theorem C84_inflated (M : ℕ) (p : Fin M → ι → ℝ) (g : ι → ℝ) (mask : ι → Bool) (m : Fin M) :
    srmse M p g mask m =
      Real.sqrt M * Spec.srmse (p m) g (Finset.univ.filter fun c => mask c = true) := by
  have hM : (0 : ℝ) < M := by exact_mod_cast Nat.lt_of_le_of_lt (Nat.zero_le _) m.2
  unfold srmse Spec.srmse
  simp only
  set S := Finset.univ.filter fun c => mask c = true
  have hc : (∑ _k : Fin M, ∑ _c ∈ S, (1 : ℝ)) = M * S.card := by simp
  rw [hc]
  set A := ∑ c ∈ S, (p m c - g c) ^ 2
  set G := ∑ c ∈ S, g c
  have hA : 0 ≤ A := Finset.sum_nonneg fun c _ => sq_nonneg _
  rcases Nat.eq_zero_or_pos S.card with h0 | h0
  · simp [h0]
  · have hS : (0 : ℝ) < S.card := by exact_mod_cast h0
    rw [show A / (M * S.card) = (A / S.card) / M by field_simp, Real.sqrt_div' _ hM.le]
    have hs : Real.sqrt M ≠ 0 := (Real.sqrt_pos.2 hM).ne'
    have hss : Real.sqrt M * Real.sqrt M = M := Real.mul_self_sqrt hM.le
    by_cases hG : G = 0
    · simp [hG]
    · field_simp
      rw [sq, hss]

/-- **C84, partial.**  For a single sample the value is the standardised root mean square error.  Missing:
several samples, where it is inflated. -/
theorem C84_single_partial (p : Fin 1 → ι → ℝ) (g : ι → ℝ) (mask : ι → Bool) :
    srmse 1 p g mask 0 = Spec.srmse (p 0) g (Finset.univ.filter fun c => mask c = true) := by
  rw [C84_inflated]
  simp

/-- **C84 is false** for several samples. -/
theorem C84_false :
    ¬ ∀ (M : ℕ) (p : Fin M → Fin 1 → ℝ) (g : Fin 1 → ℝ) (mask : Fin 1 → Bool) (m : Fin M),
      srmse M p g mask m = Spec.srmse (p m) g (Finset.univ.filter fun c => mask c = true) := by
  intro h
  have h1 := h 4 (fun _ _ => 1) (fun _ => 2) (fun _ => true) 0
  rw [C84_inflated] at h1
  have h4 : Real.sqrt ((4 : ℕ) : ℝ) = 2 := by
    rw [show ((4 : ℕ) : ℝ) = 2 ^ 2 by norm_num]
    exact Real.sqrt_sq (by norm_num)
  rw [h4] at h1
  simp [Spec.srmse] at h1
  norm_num at h1

/-- **C84.**  It is zero exactly when the tables agree on the mask (for a true table with a positive total
there). -/
theorem C84_zero_iff (M : ℕ) (p : Fin M → ι → ℝ) (g : ι → ℝ) (mask : ι → Bool) (m : Fin M)
    (hg : 0 < ∑ c ∈ Finset.univ.filter (fun c => mask c = true), g c) :
    0 ≤ srmse M p g mask m ∧ (srmse M p g mask m = 0 ↔ ∀ c, mask c = true → p m c = g c) := by
  have hM : (0 : ℝ) < M := by exact_mod_cast Nat.lt_of_le_of_lt (Nat.zero_le _) m.2
  rw [C84_inflated]
  unfold Spec.srmse
  set S := Finset.univ.filter fun c => mask c = true with hS
  have hne : S.card ≠ 0 := by
    intro h0
    rw [Finset.card_eq_zero.1 h0] at hg
    simp at hg
  have hc : (0 : ℝ) < S.card := by exact_mod_cast Nat.pos_of_ne_zero hne
  have hA : 0 ≤ ∑ c ∈ S, (p m c - g c) ^ 2 := Finset.sum_nonneg fun c _ => sq_nonneg _
  refine ⟨mul_nonneg (Real.sqrt_nonneg _) (div_nonneg (Real.sqrt_nonneg _) (div_pos hg hc).le), ?_⟩
  rw [mul_eq_zero, or_iff_right (Real.sqrt_pos.2 hM).ne', div_eq_zero_iff,
    or_iff_left (div_pos hg hc).ne', Real.sqrt_eq_zero (div_nonneg hA hc.le), div_eq_zero_iff,
    or_iff_left hc.ne', Finset.sum_eq_zero_iff_of_nonneg fun c _ => sq_nonneg _]
  constructor
  · intro h c hm
    have := h c (by simp [hS, hm])
    have := pow_eq_zero_iff (two_ne_zero) |>.1 this
    linarith
  · intro h c hcS
    have : mask c = true := by simpa [hS] using hcS
    rw [h c this]; simp

example : 0 < ∑ c ∈ Finset.univ.filter (fun c : Fin 2 => (![true, false] : Fin 2 → Bool) c = true),
    (![3, 0] : Fin 2 → ℝ) c := by
  simp [Finset.sum_filter, Fin.sum_univ_two]

end GeNSIT
