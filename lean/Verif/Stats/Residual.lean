import Verif.Stats.Metrics
import Mathlib.Data.Finset.Max
import Mathlib.Algebra.Order.BigOperators.Ring.Finset
import Mathlib.Algebra.BigOperators.Field
import Mathlib.Tactic.FieldSimp

/-!
# Property theorem C170 (relative residuals and sparsity)

`relative_l_1`, `mean_absolute_residual_percentage_error`, `sparsity` (`utils/math_utils.py:96-112`, `:387-403`, `:421-437`), as used on
test cells in the residual notebooks.  Numbers are elements of a linearly ordered field; `none` stands for a value that is not a
finite number (masked out, or a division by zero).
-/

namespace GeNSIT

set_option linter.unusedSectionVars false

variable {K : Type} [_root_.Field K] [LinearOrder K] [IsStrictOrderedRing K]
variable {I J : Type} [Fintype I] [Fintype J] [DecidableEq I] [DecidableEq J]

/-- The minimum of `ground_truth` over the second dimension (`np.min(ground_truth,1)`, `math_utils.py:111`), masked cells being
skipped: over destinations for an array `(origin, destination)`.  (For an array with a leading sample dimension the second
dimension is the origin: apply the definition to the transposed table.) -/
def lineMin (g : I → J → K) (mask : I → J → Bool) (i : I) : WithTop K :=
  ((Finset.univ.filter fun j => mask i j = true).image (g i)).min

/-- `relative_l_1` (`math_utils.py:96-112`) at one cell. -/
def relativeL1 (p g : I → J → K) (mask : I → J → Bool) (i : I) (j : J) : Option K :=
  if mask i j = true then
    match lineMin g mask i with
    | none => none
    | some d => if d = 0 then none else some (|p i j - g i j| / d)
  else none

/-- The sum of the masked cells of a column (`sum('origin')` after `where(mask,drop=True)`, `math_utils.py:393-400`). -/
def maskedSum (x : I → J → K) (mask : I → J → Bool) (j : J) : K := ∑ i, if mask i j = true then x i j else 0

/-- `mean_absolute_residual_percentage_error` (`math_utils.py:387-403`) of one table and one destination (`dim = 'origin'`; for
`dim = 'destination'` apply it to the transposed tables). -/
def marginError (p g : I → J → K) (mask : I → J → Bool) (j : J) : Option K :=
  if maskedSum g mask j = 0 then none else some (|maskedSum p mask j - maskedSum g mask j| / maskedSum g mask j)

/-- With a seed dimension: the mean over seeds (`math_utils.py:401-402`); a value that is not a number is skipped, and here is one
for all seeds or for none because the truth does not depend on the seed. -/
def marginErrorSeeds {S : ℕ} (p : Fin S → I → J → K) (g : I → J → K) (mask : I → J → Bool) (j : J) : Option K :=
  if maskedSum g mask j = 0 then none
  else some ((∑ s, |maskedSum (p s) mask j - maskedSum g mask j| / maskedSum g mask j) / S)

/-- `sparsity` (`math_utils.py:421-437`) of `N` tables: one number for all of them. -/
def sparsity {N : ℕ} (x : Fin N → I → J → K) : K :=
  ((Finset.univ.filter fun c : Fin N × I × J => x c.1 c.2.1 c.2.2 = 0).card : K) / (N * Fintype.card I * Fintype.card J : ℕ)

/-- Specification: the residual relative to the true value, true values below one counting as one. -/
def Spec.relativeResidual (p g : I → J → K) (i : I) (j : J) : K := |p i j - g i j| / max (g i j) 1

/-- Specification: the share of cells that are zero in one table. -/
def Spec.zeroShare (x : I → J → K) : K :=
  ((Finset.univ.filter fun c : I × J => x c.1 c.2 = 0).card : K) / (Fintype.card I * Fintype.card J : ℕ)

theorem lineMin_isLeast (g : I → J → K) (mask : I → J → Bool) (i : I) (d : K) :
    lineMin g mask i = (d : WithTop K) ↔ IsLeast {v | ∃ j, mask i j = true ∧ g i j = v} d := by
  unfold lineMin
  constructor
  · intro h
    have h1 := Finset.mem_of_min h
    simp only [Finset.mem_image, Finset.mem_filter, Finset.mem_univ, true_and] at h1
    refine ⟨h1, ?_⟩
    rintro v ⟨j, hj, rfl⟩
    exact Finset.min_le_of_eq (Finset.mem_image.2 ⟨j, by simp [hj], rfl⟩) h
  · rintro ⟨⟨j, hj, rfl⟩, hl⟩
    have hne : ((Finset.univ.filter fun j => mask i j = true).image (g i)).Nonempty :=
      ⟨g i j, Finset.mem_image.2 ⟨j, by simp [hj], rfl⟩⟩
    obtain ⟨m, hm⟩ := Finset.min_of_nonempty hne
    rw [hm]
    have h1 := Finset.mem_of_min hm
    simp only [Finset.mem_image, Finset.mem_filter, Finset.mem_univ, true_and] at h1
    have h2 : m ≤ g i j := Finset.min_le_of_eq (Finset.mem_image.2 ⟨j, by simp [hj], rfl⟩) hm
    have h3 : g i j ≤ m := hl h1
    rw [le_antisymm h2 h3]

/-- **C170, exact behaviour.**  The absolute residual of a test cell is divided by the *smallest* true value among the test cells of its
row, whatever the true value of the cell itself. -/
theorem C170_relative_exact (p g : I → J → K) (mask : I → J → Bool) (i : I) (j : J) (hm : mask i j = true) (d : K)
    (hd : IsLeast {v | ∃ j', mask i j' = true ∧ g i j' = v} d) :
    relativeL1 p g mask i j = if d = 0 then none else some (|p i j - g i j| / d) := by
  have h := (lineMin_isLeast g mask i d).2 hd
  unfold relativeL1
  rw [if_pos hm, h]

/-- It is the residual relative to the true value exactly where the cell is the smallest of its row. -/
theorem C170_relative_iff (p g : I → J → K) (mask : I → J → Bool) (i : I) (j : J) (hm : mask i j = true)
    (hg : ∀ j', mask i j' = true → 1 ≤ g i j') :
    relativeL1 p g mask i j = some (Spec.relativeResidual p g i j) ↔
      p i j = g i j ∨ ∀ j', mask i j' = true → g i j ≤ g i j' := by
  have hne : ((Finset.univ.filter fun j => mask i j = true).image (g i)).Nonempty :=
    ⟨g i j, Finset.mem_image.2 ⟨j, by simp [hm], rfl⟩⟩
  obtain ⟨d, hd'⟩ := Finset.min_of_nonempty hne
  have hd := (lineMin_isLeast g mask i d).1 hd'
  obtain ⟨⟨j₀, hj₀, hjd⟩, hl⟩ := hd
  have hd1 : 1 ≤ d := hjd ▸ hg j₀ hj₀
  have hd0 : d ≠ 0 := (lt_of_lt_of_le one_pos hd1).ne'
  rw [C170_relative_exact p g mask i j hm d ⟨⟨j₀, hj₀, hjd⟩, hl⟩, if_neg hd0, Option.some.injEq]
  unfold Spec.relativeResidual
  have h1 := hg j hm
  rw [max_eq_left h1]
  have hg0 : g i j ≠ 0 := (lt_of_lt_of_le one_pos h1).ne'
  constructor
  · intro h
    by_cases hp : p i j = g i j
    · exact Or.inl hp
    · right
      have habs : |p i j - g i j| ≠ 0 := by simpa [sub_eq_zero] using hp
      have : d = g i j := by
        rw [div_eq_div_iff hd0 hg0] at h
        exact (mul_left_cancel₀ habs h).symm
      intro j' hj'
      rw [← this]
      exact hl ⟨j', hj', rfl⟩
  · rintro (h | h)
    · simp [h]
    · have : d = g i j := le_antisymm (hl ⟨j, hm, rfl⟩) (hjd ▸ h j₀ hj₀)
      rw [this]

/-- One empty true cell in the row leaves no test cell of that row with a finite residual. -/
theorem C170_zero_line (p g : I → J → K) (mask : I → J → Bool) (i : I) (j₀ : J) (hm : mask i j₀ = true) (h0 : g i j₀ = 0)
    (hg : ∀ j', mask i j' = true → 0 ≤ g i j') (j : J) : relativeL1 p g mask i j = none := by
  by_cases hj : mask i j = true
  · rw [C170_relative_exact p g mask i j hj 0 ⟨⟨j₀, hm, h0⟩, fun v ⟨j', h', e⟩ => e ▸ hg j' h'⟩, if_pos rfl]
  · simp [relativeL1, hj]

/-- Where it is finite and the truth is positive it is never below the relative residual `|p − g| / g`. -/
theorem C170_overstated (p g : I → J → K) (mask : I → J → Bool) (i : I) (j : J) (v : K)
    (hg : ∀ j', mask i j' = true → 0 < g i j') (h : relativeL1 p g mask i j = some v) :
    |p i j - g i j| / g i j ≤ v ∧ (v = 0 ↔ p i j = g i j) := by
  unfold relativeL1 at h
  split at h
  · rename_i hm
    split at h
    · cases h
    · rename_i d hd
      split at h
      · cases h
      · rename_i hd0
        obtain rfl := Option.some.inj h
        obtain ⟨⟨j₀, hj₀, hjd⟩, hl⟩ := (lineMin_isLeast g mask i d).1 hd
        have hdp : 0 < d := hjd ▸ hg j₀ hj₀
        refine ⟨?_, ?_⟩
        · exact div_le_div_of_nonneg_left (abs_nonneg _) hdp (hl ⟨j, hm, rfl⟩)
        · rw [div_eq_zero_iff]
          simp [hd0, sub_eq_zero]
  · cases h

/-- "The relative residual of a cell is its absolute residual over its true value" is false. -/
theorem C170_false : ∃ (p g : Fin 1 → Fin 2 → ℚ) (mask : Fin 1 → Fin 2 → Bool), (∀ i j, 1 ≤ g i j) ∧ mask 0 0 = true ∧
    relativeL1 p g mask 0 0 ≠ some (Spec.relativeResidual p g 0 0) := by
  refine ⟨fun _ j => if j = 0 then 110 else 1, fun _ j => if j = 0 then 100 else 1, fun _ _ => true, ?_, rfl, ?_⟩
  · intro i j
    fin_cases j <;> norm_num
  · intro h
    have h2 := (C170_relative_iff (fun _ j => if j = 0 then 110 else 1 : Fin 1 → Fin 2 → ℚ)
      (fun _ j => if j = 0 then 100 else 1) (fun _ _ => true) 0 0 rfl
      (by intro j _; fin_cases j <;> norm_num)).1 h
    rcases h2 with h2 | h2
    · norm_num at h2
    · have := h2 1 rfl
      norm_num at this

/-- **C170, margins.**  The margin error is the absolute difference of the margins over the test cells relative to the true margin; it
vanishes exactly when these margins agree and is at most the sum of the absolute residuals relative to the margin. -/
theorem C170_margin (p g : I → J → K) (mask : I → J → Bool) (j : J) (v : K) (hg : ∀ i, mask i j = true → 0 ≤ g i j)
    (h : marginError p g mask j = some v) :
    v * maskedSum g mask j = |maskedSum p mask j - maskedSum g mask j| ∧ 0 ≤ v ∧
      (v = 0 ↔ maskedSum p mask j = maskedSum g mask j) ∧
      v ≤ (∑ i, if mask i j = true then |p i j - g i j| else 0) / maskedSum g mask j := by
  unfold marginError at h
  split at h
  · cases h
  · rename_i hs
    obtain rfl := Option.some.inj h
    have hs0 : 0 ≤ maskedSum g mask j := by
      apply Finset.sum_nonneg
      intro i _
      split
      · exact hg i (by assumption)
      · exact le_refl _
    refine ⟨div_mul_cancel₀ _ hs, div_nonneg (abs_nonneg _) hs0, ?_, ?_⟩
    · rw [div_eq_zero_iff]
      simp [hs, sub_eq_zero]
    · apply div_le_div_of_nonneg_right _ hs0
      have : maskedSum p mask j - maskedSum g mask j = ∑ i, if mask i j = true then p i j - g i j else 0 := by
        unfold maskedSum
        rw [← Finset.sum_sub_distrib]
        apply Finset.sum_congr rfl
        intro i _
        split <;> simp
      rw [this]
      refine (Finset.abs_sum_le_sum_abs _ _).trans (Finset.sum_le_sum fun i _ => ?_)
      split <;> simp

/-- It is undefined exactly when the true margin over the test cells is zero. -/
theorem C170_margin_undefined (p g : I → J → K) (mask : I → J → Bool) (j : J) :
    marginError p g mask j = none ↔ ∑ i, (if mask i j = true then g i j else 0) = 0 := by
  unfold marginError maskedSum
  split <;> simp_all

/-- With several seeds the mean of their errors is reported, which is never below the error of the mean prediction. -/
theorem C170_margin_seeds {S : ℕ} (hS : 0 < S) (p : Fin S → I → J → K) (g : I → J → K) (mask : I → J → Bool) (j : J) (v w : K)
    (hg : ∀ i, mask i j = true → 0 ≤ g i j) (hv : marginErrorSeeds p g mask j = some v)
    (hw : marginError (fun i j => (∑ s, p s i j) / S) g mask j = some w) : w ≤ v := by
  unfold marginErrorSeeds at hv
  unfold marginError at hw
  split at hv
  · cases hv
  · rename_i hs
    rw [if_neg hs] at hw
    obtain rfl := Option.some.inj hv
    obtain rfl := Option.some.inj hw
    have hs0 : 0 ≤ maskedSum g mask j := by
      apply Finset.sum_nonneg
      intro i _
      split
      · exact hg i (by assumption)
      · exact le_refl _
    have hS' : (0 : K) < S := by exact_mod_cast hS
    have hmean : maskedSum (fun i j => (∑ s, p s i j) / S) mask j - maskedSum g mask j
        = (∑ s, (maskedSum (p s) mask j - maskedSum g mask j)) / S := by
      rw [Finset.sum_sub_distrib, Finset.sum_const, Finset.card_univ, Fintype.card_fin, nsmul_eq_mul, sub_div,
        mul_div_cancel_left₀ _ hS'.ne']
      congr 1
      unfold maskedSum
      rw [Finset.sum_comm, Finset.sum_div]
      apply Finset.sum_congr rfl
      intro i _
      split <;> simp
    rw [hmean, abs_div, abs_of_pos hS', ← Finset.sum_div, div_right_comm]
    apply div_le_div_of_nonneg_right _ hS'.le
    apply div_le_div_of_nonneg_right _ hs0
    exact Finset.abs_sum_le_sum_abs _ _

/-- **C170, sparsity.**  The number returned for several tables is the mean over the tables of their shares of zero cells. -/
theorem C170_sparsity {N : ℕ} (x : Fin N → I → J → K) :
    sparsity x = (∑ k, Spec.zeroShare (x k)) / N := by
  unfold sparsity Spec.zeroShare
  rw [← Finset.sum_div, div_div]
  have hcard : (Finset.univ.filter fun c : Fin N × I × J => x c.1 c.2.1 c.2.2 = 0).card
      = ∑ k : Fin N, (Finset.univ.filter fun c : I × J => x k c.1 c.2 = 0).card := by
    simp only [Finset.card_filter]
    rw [Fintype.sum_prod_type]
  rw [hcard]
  push_cast
  congr 1
  ring

/-- It lies between 0 and 1, and is 1 exactly when every cell of every table is zero, 0 exactly when none is. -/
theorem C170_sparsity_range {N : ℕ} (hN : 0 < N) [Nonempty I] [Nonempty J] (x : Fin N → I → J → K) :
    0 ≤ sparsity x ∧ sparsity x ≤ 1 ∧ (sparsity x = 1 ↔ ∀ k i j, x k i j = 0) ∧ (sparsity x = 0 ↔ ∀ k i j, x k i j ≠ 0) := by
  have htot : Fintype.card (Fin N × I × J) = N * Fintype.card I * Fintype.card J := by
    rw [Fintype.card_prod, Fintype.card_prod, Fintype.card_fin, mul_assoc]
  have hpos : 0 < N * Fintype.card I * Fintype.card J :=
    Nat.mul_pos (Nat.mul_pos hN Fintype.card_pos) Fintype.card_pos
  have hpos' : (0 : K) < (N * Fintype.card I * Fintype.card J : ℕ) := by exact_mod_cast hpos
  have hle : (Finset.univ.filter fun c : Fin N × I × J => x c.1 c.2.1 c.2.2 = 0).card ≤ N * Fintype.card I * Fintype.card J := by
    rw [← htot, ← Finset.card_univ]
    exact Finset.card_filter_le _ _
  refine ⟨div_nonneg (Nat.cast_nonneg _) hpos'.le, (div_le_one hpos').2 (by exact_mod_cast hle), ?_, ?_⟩
  · unfold sparsity
    rw [div_eq_one_iff_eq hpos'.ne', Nat.cast_inj, ← htot, ← Finset.card_univ, Finset.card_filter_eq_iff]
    exact ⟨fun h k i j => h (k, i, j) (Finset.mem_univ _), fun h c _ => h c.1 c.2.1 c.2.2⟩
  · unfold sparsity
    rw [div_eq_zero_iff]
    simp only [hpos'.ne', or_false, Nat.cast_eq_zero, Finset.card_eq_zero, Finset.filter_eq_empty_iff]
    exact ⟨fun h k i j => h (x := (k, i, j)) (Finset.mem_univ _), fun h c _ => h c.1 c.2.1 c.2.2⟩

/-- "Each table gets its own share of zero cells" is false: two tables, one empty and one full, are both given one half. -/
theorem C170_sparsity_false : ∃ x : Fin 2 → Fin 1 → Fin 2 → ℚ, sparsity x ≠ Spec.zeroShare (x 0) ∧ sparsity x ≠ Spec.zeroShare (x 1) := by
  refine ⟨fun k _ _ => k.val, ?_, ?_⟩ <;> rw [C170_sparsity, Fin.sum_univ_two] <;> simp [Spec.zeroShare, Finset.filter_true, Finset.filter_false]

example : relativeL1 (fun i j => if i = 0 ∧ j = 0 then 110 else 20 : Fin 2 → Fin 2 → ℚ)
    (fun i j => if i = 0 ∧ j = 0 then 100 else 10) (fun _ _ => true) 0 0 = some 1 := by
  rw [C170_relative_exact _ _ _ 0 0 rfl 10 ⟨⟨1, rfl, by norm_num⟩, ?_⟩]
  · norm_num
  · rintro v ⟨j, _, rfl⟩
    fin_cases j <;> norm_num

example : marginError (fun i j => if i = 0 ∧ j = 0 then 110 else 20 : Fin 2 → Fin 2 → ℚ)
    (fun i j => if i = 0 ∧ j = 0 then 90 else 10) (fun _ _ => true) 0 = some (3 / 10) := by
  simp [marginError, maskedSum]
  norm_num

end GeNSIT
