import Mathlib.Algebra.BigOperators.Fin
import Mathlib.Algebra.BigOperators.Field
import Mathlib.Algebra.Order.BigOperators.Ring.Finset
import Mathlib.Data.Real.Basic
import Mathlib.Data.Finset.Max
import Mathlib.Tactic.Ring
import Mathlib.Tactic.Linarith
import Mathlib.Tactic.Positivity
import Mathlib.Tactic.NormNum
import Mathlib.Tactic.FieldSimp

/-!
# Property theorems C179 (chi-squared distances) and C180 (relative errors)

`chi_squared_row_distance`, `chi_squared_column_distance`, `chi_squared_distance`, `l_1` and `relative_l_1`
(`/repo/gensit/utils/math_utils.py:78-112`, `:186-206`), which users name in expressions over stored tables.

Arithmetic is exact; NaN and infinities are `none`.
-/

open scoped BigOperators

namespace GeNSIT

variable {I J : ℕ}

/-- `np.where(s <= 0, 1, s)`. -/
noncomputable def safeSum (s : ℝ) : ℝ := if s ≤ 0 then 1 else s

/-- `chi_squared_row_distance` (`math_utils.py:186-193`) of two tables with the given dimensions. -/
noncomputable def chiRow (t1 t2 : Fin I → Fin J → ℝ) : ℝ :=
  ∑ i, ∑ j, (t1 i j / safeSum (∑ j', t1 i j') - t2 i j / safeSum (∑ j', t2 i j')) ^ 2 / safeSum (∑ i', t1 i' j)

/-- `chi_squared_column_distance` (`math_utils.py:195-202`). -/
noncomputable def chiColumn (t1 t2 : Fin I → Fin J → ℝ) : ℝ :=
  ∑ i, ∑ j, (t1 i j / safeSum (∑ i', t1 i' j) - t2 i j / safeSum (∑ i', t2 i' j)) ^ 2 / safeSum (∑ j', t1 i j')

/-- How a Python function takes arguments: `required` positional ones and any keywords. -/
def callAccepted (required given : ℕ) : Bool := required == given

/-- `chi_squared_distance` (`math_utils.py:204-206`): hands three positional arguments to functions that take two; `none`: `TypeError`. -/
noncomputable def chiBoth (t1 t2 : Fin I → Fin J → ℝ) : Option ℝ :=
  if callAccepted 2 3 then some (chiColumn t1 t2 + chiRow t1 t2) else none

/-! ### Specification -/

/-- Row profiles: shares of the cells in the total of their row; a row without total is taken as it is. -/
def Spec.SameRowProfiles (t1 t2 : Fin I → Fin J → ℝ) : Prop :=
  ∀ i, ∃ a b : ℝ, (a = ∑ j, t1 i j ∨ (∑ j, t1 i j) ≤ 0 ∧ a = 1) ∧ (b = ∑ j, t2 i j ∨ (∑ j, t2 i j) ≤ 0 ∧ b = 1) ∧ 0 < a ∧ 0 < b ∧
    ∀ j, t1 i j * b = t2 i j * a

/-- The textbook squared chi-squared distance between the row profiles of tables with positive margins: `Σ_j (1 / column total_j) (profile1_ij - profile2_ij)²`, summed over the rows. -/
noncomputable def Spec.chiSquaredRows (t1 t2 : Fin I → Fin J → ℝ) : ℝ :=
  ∑ j, (∑ i, t1 i j)⁻¹ * ∑ i, (t1 i j / (∑ j', t1 i j') - t2 i j / (∑ j', t2 i j')) ^ 2

/-! ### Lemmas -/

theorem safeSum_pos (s : ℝ) : 0 < safeSum s := by
  unfold safeSum
  by_cases h : s ≤ 0
  · rw [if_pos h]; exact one_pos
  · rw [if_neg h]; exact not_le.1 h

theorem safeSum_of_pos {s : ℝ} (h : 0 < s) : safeSum s = s := if_neg (not_le.2 h)

theorem chiRow_term_nonneg (t1 t2 : Fin I → Fin J → ℝ) (i : Fin I) (j : Fin J) :
    0 ≤ (t1 i j / safeSum (∑ j', t1 i j') - t2 i j / safeSum (∑ j', t2 i j')) ^ 2 / safeSum (∑ i', t1 i' j) :=
  div_nonneg (sq_nonneg _) (safeSum_pos _).le

theorem chiRow_eq_zero (t1 t2 : Fin I → Fin J → ℝ) :
    chiRow t1 t2 = 0 ↔ ∀ i j, t1 i j / safeSum (∑ j', t1 i j') = t2 i j / safeSum (∑ j', t2 i j') := by
  unfold chiRow
  rw [Finset.sum_eq_zero_iff_of_nonneg fun i _ => Finset.sum_nonneg fun j _ => chiRow_term_nonneg t1 t2 i j]
  refine forall_congr' fun i => ?_
  rw [Finset.sum_eq_zero_iff_of_nonneg fun j _ => chiRow_term_nonneg t1 t2 i j]
  simp only [Finset.mem_univ, true_implies]
  refine forall_congr' fun j => ?_
  rw [div_eq_zero_iff, or_iff_left (safeSum_pos _).ne', sq_eq_zero_iff, sub_eq_zero]

/-! ### C179 -/

/-- **C179 (value).**  For tables with positive margins the row distance is the textbook distance between row profiles, weighted by the column totals of the first table. -/
theorem C179_value (t1 t2 : Fin I → Fin J → ℝ) (h1 : ∀ i, 0 < ∑ j, t1 i j) (h2 : ∀ i, 0 < ∑ j, t2 i j) (hc : ∀ j, 0 < ∑ i, t1 i j) :
    chiRow t1 t2 = Spec.chiSquaredRows t1 t2 := by
  unfold chiRow Spec.chiSquaredRows
  rw [Finset.sum_comm]
  refine Finset.sum_congr rfl fun j _ => ?_
  rw [Finset.mul_sum]
  refine Finset.sum_congr rfl fun i _ => ?_
  rw [safeSum_of_pos (h1 i), safeSum_of_pos (h2 i), safeSum_of_pos (hc j), div_eq_inv_mul]

/-- **C179 (transposition).**  The column distance is the row distance of the transposed tables. -/
theorem C179_transpose (t1 t2 : Fin I → Fin J → ℝ) : chiColumn t1 t2 = chiRow (fun j i => t1 i j) (fun j i => t2 i j) := by
  unfold chiColumn chiRow
  rw [Finset.sum_comm]

/-- **C179 (sign and zero).**  The distance is never negative, and it is zero exactly for tables with the same row profiles, also when rows or columns are empty. -/
theorem C179_zero_iff (t1 t2 : Fin I → Fin J → ℝ) : 0 ≤ chiRow t1 t2 ∧ (chiRow t1 t2 = 0 ↔ Spec.SameRowProfiles t1 t2) := by
  refine ⟨Finset.sum_nonneg fun i _ => Finset.sum_nonneg fun j _ => chiRow_term_nonneg t1 t2 i j, ?_⟩
  rw [chiRow_eq_zero]
  refine forall_congr' fun i => ?_
  have key : ∀ s a : ℝ, (a = s ∨ s ≤ 0 ∧ a = 1) → 0 < a → a = safeSum s := by
    intro s a h ha
    unfold safeSum
    rcases h with rfl | ⟨h, rfl⟩
    · rw [if_neg (not_le.2 ha)]
    · rw [if_pos h]
  constructor
  · intro h
    refine ⟨safeSum (∑ j, t1 i j), safeSum (∑ j, t2 i j), ?_, ?_, safeSum_pos _, safeSum_pos _, fun j => ?_⟩
    · by_cases hs : (∑ j, t1 i j) ≤ 0
      · exact .inr ⟨hs, if_pos hs⟩
      · exact .inl (if_neg hs)
    · by_cases hs : (∑ j, t2 i j) ≤ 0
      · exact .inr ⟨hs, if_pos hs⟩
      · exact .inl (if_neg hs)
    · exact (div_eq_div_iff (safeSum_pos _).ne' (safeSum_pos _).ne').1 (h j)
  · rintro ⟨a, b, h1, h2, ha, hb, h⟩ j
    rw [← key _ a h1 ha, ← key _ b h2 hb, div_eq_div_iff ha.ne' hb.ne']
    exact h j

/-- Among tables with the same row totals it separates tables. -/
theorem C179_separates (t1 t2 : Fin I → Fin J → ℝ) (hr : ∀ i, ∑ j, t1 i j = ∑ j, t2 i j) : chiRow t1 t2 = 0 ↔ t1 = t2 := by
  rw [chiRow_eq_zero]
  constructor
  · intro h
    funext i j
    have := h i j
    rw [hr i] at this
    exact (div_left_inj' (safeSum_pos _).ne').1 this
  · rintro rfl i j
    rfl

/-- It is symmetric among tables with the same column totals … -/
theorem C179_symmetric (t1 t2 : Fin I → Fin J → ℝ) (hc : ∀ j, ∑ i, t1 i j = ∑ i, t2 i j) : chiRow t1 t2 = chiRow t2 t1 := by
  unfold chiRow
  refine Finset.sum_congr rfl fun i _ => Finset.sum_congr rfl fun j _ => ?_
  rw [hc j]
  ring

/-- … but not in general: it is no distance. -/
theorem C179_symmetric_false : ¬ ∀ t1 t2 : Fin 1 → Fin 2 → ℝ, chiRow t1 t2 = chiRow t2 t1 := by
  intro h
  have := h (fun _ j => if j = 0 then 1 else 1) (fun _ j => if j = 0 then 1 else 3)
  revert this
  simp only [chiRow, safeSum, Fin.sum_univ_two, Finset.univ_unique, Finset.sum_singleton]
  norm_num

/-- **C179 (the sum of both).**  The distance made of both raises for every pair of tables. -/
theorem C179_both_raises (t1 t2 : Fin I → Fin J → ℝ) : chiBoth t1 t2 = none := rfl

/-- "The combined distance is the sum of the row and the column distance" is false. -/
theorem C179_both_false : ¬ ∀ t1 t2 : Fin 2 → Fin 2 → ℝ, chiBoth t1 t2 = some (chiColumn t1 t2 + chiRow t1 t2) := by
  intro h
  have := h (fun _ _ => 1) (fun _ _ => 1)
  rw [C179_both_raises] at this
  cases this

example : chiRow (fun (_ : Fin 1) (j : Fin 2) => if j = 0 then 1 else 1) (fun _ j => if j = 0 then (1 : ℝ) else 3) = 1 / 8 := by
  simp only [chiRow, safeSum, Fin.sum_univ_two, Finset.univ_unique, Finset.sum_singleton]
  norm_num

/-! ### C180 -/

/-- `l_1` (`math_utils.py:78-93`) of aligned tables: absolute difference at the cells of the mask, NaN elsewhere. -/
def absError (mask : Fin I → Fin J → Bool) (p g : Fin I → Fin J → ℚ) (i : Fin I) (j : Fin J) : Option ℚ :=
  if mask i j then some |p i j - g i j| else none

/-- `np.min(ground_truth, 1)` (`math_utils.py:111`) of a table: the *least value along the second axis*, NaN skipped; `none`: nothing but NaN. -/
def axisMin (mask : Fin I → Fin J → Bool) (g : Fin I → Fin J → ℚ) (i : Fin I) : Option ℚ :=
  (((List.finRange J).filter fun j => mask i j).map fun j => g i j).min?

/-- Division of floating-point numbers; `none`: NaN or infinite. -/
def divCell (a : Option ℚ) (b : Option ℚ) : Option ℚ := match a, b with
  | some x, some y => if y = 0 then none else some (x / y)
  | _, _ => none

/-- `relative_l_1` (`math_utils.py:96-112`). -/
def relError (mask : Fin I → Fin J → Bool) (p g : Fin I → Fin J → ℚ) (i : Fin I) (j : Fin J) : Option ℚ :=
  divCell (absError mask p g i j) (axisMin mask g i)

/-- The denominator: the least value of the row among the cells of the mask. -/
theorem C180_denominator (mask : Fin I → Fin J → Bool) (g : Fin I → Fin J → ℚ) (i : Fin I) (m : ℚ) :
    axisMin mask g i = some m ↔ (∃ j, mask i j = true ∧ g i j = m) ∧ ∀ j, mask i j = true → m ≤ g i j := by
  unfold axisMin
  rw [List.min?_eq_some_iff]
  simp only [List.mem_map, List.mem_filter, List.mem_finRange, true_and]
  constructor
  · rintro ⟨⟨j, h1, h2⟩, h3⟩
    exact ⟨⟨j, h1, h2⟩, fun j' hj' => h3 _ ⟨j', hj', rfl⟩⟩
  · rintro ⟨⟨j, h1, h2⟩, h3⟩
    refine ⟨⟨j, h1, h2⟩, ?_⟩
    rintro b ⟨j', hj', rfl⟩
    exact h3 j' hj'

/-- **C180 (absolute error).**  The absolute difference at the cells of the mask and nothing elsewhere; zero exactly where prediction and truth agree. -/
theorem C180_absolute (mask : Fin I → Fin J → Bool) (p g : Fin I → Fin J → ℚ) (i : Fin I) (j : Fin J) :
    (mask i j = true → absError mask p g i j = some (max (p i j - g i j) (g i j - p i j)) ∧ (absError mask p g i j = some 0 ↔ p i j = g i j)) ∧
      (mask i j = false → absError mask p g i j = none) := by
  refine ⟨fun h => ?_, fun h => by simp [absError, h]⟩
  rw [absError, if_pos h]
  refine ⟨?_, ?_⟩
  · rw [abs_eq_max_neg, neg_sub]
  · rw [Option.some.injEq, abs_eq_zero, sub_eq_zero]

/-- **C180 (exact behaviour).**  A cell of the mask has the absolute error divided by the least true value of its *row*, if that is not zero. -/
theorem C180_exact (mask : Fin I → Fin J → Bool) (p g : Fin I → Fin J → ℚ) (i : Fin I) (j : Fin J) (hm : mask i j = true) :
    ∃ m, ((∃ j', mask i j' = true ∧ g i j' = m) ∧ ∀ j', mask i j' = true → m ≤ g i j') ∧
      relError mask p g i j = if m = 0 then none else some (|p i j - g i j| / m) := by
  cases h : axisMin mask g i with
  | none =>
    exfalso
    unfold axisMin at h
    rw [List.min?_eq_none_iff, List.map_eq_nil_iff, List.filter_eq_nil_iff] at h
    exact h j (List.mem_finRange j) hm
  | some m =>
    refine ⟨m, (C180_denominator mask g i m).1 h, ?_⟩
    simp only [relError, divCell, absError, if_pos hm, h]

/-- It is the error relative to the cell's own true value exactly at cells with the least true value of their row (or where the prediction is right, or the value is not finite). -/
theorem C180_own_value (mask : Fin I → Fin J → Bool) (p g : Fin I → Fin J → ℚ) (i : Fin I) (j : Fin J) (hm : mask i j = true)
    (hg : ∀ j', mask i j' = true → 0 < g i j') (hne : p i j ≠ g i j) :
    relError mask p g i j = some (|p i j - g i j| / g i j) ↔ ∀ j', mask i j' = true → g i j ≤ g i j' := by
  obtain ⟨m, ⟨⟨j0, h0, hj0⟩, hle⟩, he⟩ := C180_exact mask p g i j hm
  have hm0 : m ≠ 0 := by
    rw [← hj0]
    exact (hg j0 h0).ne'
  have ha : |p i j - g i j| ≠ 0 := by
    rw [ne_eq, abs_eq_zero, sub_eq_zero]
    exact hne
  rw [he, if_neg hm0, Option.some.injEq, div_eq_div_iff hm0 (hg j hm).ne', mul_right_inj' ha]
  constructor
  · intro h j' hj'
    rw [h]
    exact hle j' hj'
  · intro h
    exact le_antisymm (by rw [← hj0]; exact h j0 h0) (hle j hm)

/-- One true zero in a row (or column, if that is the second axis) makes every error of the row undefined. -/
theorem C180_zero_row (mask : Fin I → Fin J → Bool) (p g : Fin I → Fin J → ℚ) (i : Fin I) (j j0 : Fin J) (hg : ∀ j', mask i j' = true → 0 ≤ g i j')
    (h0 : mask i j0 = true) (hz : g i j0 = 0) : relError mask p g i j = none := by
  have : axisMin mask g i = some 0 := (C180_denominator mask g i 0).2 ⟨⟨j0, h0, hz⟩, hg⟩
  simp only [relError, this]
  unfold divCell
  cases absError mask p g i j <;> simp

/-- "The relative error of a cell is the absolute error divided by the true value (at least one)" is false. -/
theorem C180_false : ¬ ∀ (p g : Fin 1 → Fin 2 → ℚ) (i : Fin 1) (j : Fin 2), (∀ i j, 0 ≤ g i j) →
    relError (fun _ _ => true) p g i j = some (|p i j - g i j| / max (g i j) 1) := by
  intro h
  have := h (fun _ j => if j = 0 then 0 else 4) (fun _ j => if j = 0 then 0 else 2) 0 1 (by
    intro i j
    by_cases hj : j = 0 <;> simp [hj])
  rw [C180_zero_row (j0 := 0) _ _ _ _ _ (by intro j _; by_cases hj : j = 0 <;> simp [hj]) rfl (by simp)] at this
  cases this

example : relError (fun _ _ => true) (fun (_ : Fin 1) (j : Fin 2) => if j = 0 then 3 else 8) (fun _ j => if j = 0 then 2 else 6) 0 1 = some 1 := by
  obtain ⟨m, ⟨⟨j0, _, hj0⟩, hle⟩, he⟩ := C180_exact (fun _ _ => true) (fun (_ : Fin 1) (j : Fin 2) => if j = 0 then (3 : ℚ) else 8) (fun _ j => if j = 0 then 2 else 6) 0 1 rfl
  have h0 := hle 0 rfl
  have : m = 2 := by
    by_cases hj : j0 = 0
    · simp [hj] at hj0; exact hj0.symm
    · simp [hj] at hj0; simp at h0; linarith
  rw [he, this]
  norm_num

end GeNSIT
