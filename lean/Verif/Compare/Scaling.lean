import Mathlib.Analysis.Real.Sqrt
import Mathlib.Algebra.BigOperators.Group.List.Basic
import Mathlib.Algebra.Order.BigOperators.Group.List
import Mathlib.Algebra.BigOperators.Ring.List
import Mathlib.Algebra.Order.Field.Basic
import Mathlib.Tactic.Ring
import Mathlib.Tactic.FieldSimp
import Mathlib.Tactic.Linarith
import Mathlib.Tactic.Positivity
import Mathlib.Tactic.NormNum

/-!
# Scaling of the region features (`gensit/experiments.py:2838-2841`, `3445-3448`) (C139)

A column of features has one value per region; `none` is NaN. Numbers are real.
-/

namespace GeNSIT

/-- The values of a column without NaN; `none` if there is one (the reductions of torch then give NaN). -/
def column (c : List (Option ℝ)) : Option (List ℝ) := c.mapM id

/-- The least value. -/
noncomputable def colMin : List ℝ → ℝ
  | [] => 0
  | x :: l => l.foldl min x

/-- The greatest value. -/
noncomputable def colMax : List ℝ → ℝ
  | [] => 0
  | x :: l => l.foldl max x

/-- Division where `0 / 0` is NaN; a nonzero number is never divided by zero here. -/
noncomputable def divNaN (a b : ℝ) : Option ℝ := if b = 0 then none else some (a / b)

/-- The scaling of XGBoost (`experiments.py:2839-2841`): `(x - min) * 2 / (max - min) - 1`. -/
noncomputable def minMaxScale (c : List (Option ℝ)) : List (Option ℝ) :=
  match column c with
  | none => c.map fun _ => none
  | some xs => xs.map fun x => (divNaN ((x - colMin xs) * 2) (colMax xs - colMin xs)).map (· - 1)

/-- `mean(dim = 0)`. -/
noncomputable def colMean (xs : List ℝ) : ℝ := xs.sum / xs.length

/-- `std(dim = 0)`, with the divisor `n - 1`: NaN for one value. -/
noncomputable def colStd (xs : List ℝ) : Option ℝ :=
  if xs.length ≤ 1 then none else some (Real.sqrt ((xs.map fun x => (x - colMean xs) ^ 2).sum / (xs.length - 1)))

/-- The scaling of the graph attention network (`experiments.py:3446-3448`): `(x - mean) / std`. -/
noncomputable def standardise (c : List (Option ℝ)) : List (Option ℝ) :=
  match column c with
  | none => c.map fun _ => none
  | some xs => xs.map fun x => (colStd xs).bind fun s => divNaN (x - colMean xs) s

/-! ## C139 -/

theorem column_some (xs : List ℝ) : column (xs.map some) = some xs := by
  unfold column
  induction xs with
  | nil => rfl
  | cons x xs ih => simp [List.mapM_cons, ih]

theorem column_none {c : List (Option ℝ)} (h : none ∈ c) : column c = none := by
  unfold column
  induction c with
  | nil => simp at h
  | cons x c ih =>
    rcases List.mem_cons.1 h with h | h'
    · subst h; rfl
    · cases x with
      | none => rfl
      | some x => simp [List.mapM_cons, ih h']

theorem colFoldl_min (l : List ℝ) (x : ℝ) : l.foldl min x ≤ x ∧ (∀ y ∈ l, l.foldl min x ≤ y) ∧ (l.foldl min x = x ∨ l.foldl min x ∈ l) := by
  induction l generalizing x with
  | nil => simp
  | cons a l ih =>
    obtain ⟨h1, h2, h3⟩ := ih (min x a)
    simp only [List.foldl_cons]
    refine ⟨h1.trans (min_le_left _ _), ?_, ?_⟩
    · intro y hy
      rcases List.mem_cons.1 hy with rfl | hy
      · exact h1.trans (min_le_right _ _)
      · exact h2 y hy
    · rcases h3 with h3 | h3
      · rcases min_choice x a with h | h
        · left; rw [h3, h]
        · right; rw [h3, h]; exact List.mem_cons_self
      · right; exact List.mem_cons_of_mem _ h3

theorem colFoldl_max (l : List ℝ) (x : ℝ) : x ≤ l.foldl max x ∧ (∀ y ∈ l, y ≤ l.foldl max x) ∧ (l.foldl max x = x ∨ l.foldl max x ∈ l) := by
  induction l generalizing x with
  | nil => simp
  | cons a l ih =>
    obtain ⟨h1, h2, h3⟩ := ih (max x a)
    simp only [List.foldl_cons]
    refine ⟨(le_max_left _ _).trans h1, ?_, ?_⟩
    · intro y hy
      rcases List.mem_cons.1 hy with rfl | hy
      · exact (le_max_right _ _).trans h1
      · exact h2 y hy
    · rcases h3 with h3 | h3
      · rcases max_choice x a with h | h
        · left; rw [h3, h]
        · right; rw [h3, h]; exact List.mem_cons_self
      · right; exact List.mem_cons_of_mem _ h3

theorem colMin_spec {xs : List ℝ} (h : xs ≠ []) : colMin xs ∈ xs ∧ ∀ y ∈ xs, colMin xs ≤ y := by
  cases xs with
  | nil => exact absurd rfl h
  | cons x l =>
    obtain ⟨h1, h2, h3⟩ := colFoldl_min l x
    refine ⟨?_, ?_⟩
    · rcases h3 with h3 | h3
      · simp [colMin, h3]
      · exact List.mem_cons_of_mem _ h3
    · intro y hy
      rcases List.mem_cons.1 hy with rfl | hy
      · exact h1
      · exact h2 y hy

theorem colMax_spec {xs : List ℝ} (h : xs ≠ []) : colMax xs ∈ xs ∧ ∀ y ∈ xs, y ≤ colMax xs := by
  cases xs with
  | nil => exact absurd rfl h
  | cons x l =>
    obtain ⟨h1, h2, h3⟩ := colFoldl_max l x
    refine ⟨?_, ?_⟩
    · rcases h3 with h3 | h3
      · simp [colMax, h3]
      · exact List.mem_cons_of_mem _ h3
    · intro y hy
      rcases List.mem_cons.1 hy with rfl | hy
      · exact h1
      · exact h2 y hy

/-- C139: the column has two different values. -/
def Spec.Varies (xs : List ℝ) : Prop := ∃ a ∈ xs, ∃ b ∈ xs, a ≠ b

theorem range_pos_iff (xs : List ℝ) : colMax xs - colMin xs = 0 ↔ ¬ Spec.Varies xs := by
  constructor
  · rintro h ⟨a, ha, b, hb, hab⟩
    have hne : xs ≠ [] := List.ne_nil_of_mem ha
    have h1 := (colMin_spec hne).2
    have h2 := (colMax_spec hne).2
    exact hab (by linarith [h1 a ha, h1 b hb, h2 a ha, h2 b hb])
  · intro h
    by_cases hne : xs = []
    · simp [hne, colMin, colMax]
    · by_contra hc
      exact h ⟨_, (colMax_spec hne).1, _, (colMin_spec hne).1, fun h => hc (by linarith)⟩

/-- C139: a column with different values is scaled onto the interval from -1 to 1 by an increasing map: the least value becomes -1, the greatest 1. -/
theorem C139_minmax (xs : List ℝ) (h : Spec.Varies xs) : ∃ f : ℝ → ℝ, minMaxScale (xs.map some) = xs.map (fun x => some (f x)) ∧
    StrictMono f ∧ (∀ x ∈ xs, -1 ≤ f x ∧ f x ≤ 1) ∧ (∀ x ∈ xs, f x = -1 ↔ ∀ y ∈ xs, x ≤ y) ∧ (∀ x ∈ xs, f x = 1 ↔ ∀ y ∈ xs, y ≤ x) := by
  have hne : xs ≠ [] := by
    obtain ⟨a, ha, _⟩ := h
    exact List.ne_nil_of_mem ha
  have hr : colMax xs - colMin xs ≠ 0 := fun hc => (range_pos_iff xs).1 hc h
  obtain ⟨hmin, hmin'⟩ := colMin_spec hne
  obtain ⟨hmax, hmax'⟩ := colMax_spec hne
  have hpos : 0 < colMax xs - colMin xs := lt_of_le_of_ne (by linarith [hmin' _ hmax]) (Ne.symm hr)
  have mono : StrictMono fun x => (x - colMin xs) * 2 / (colMax xs - colMin xs) - 1 := by
    intro a b hab
    simp only
    have : (a - colMin xs) * 2 / (colMax xs - colMin xs) < (b - colMin xs) * 2 / (colMax xs - colMin xs) := by
      apply div_lt_div_of_pos_right _ hpos
      linarith
    linarith
  have e1 : (colMin xs - colMin xs) * 2 / (colMax xs - colMin xs) - 1 = -1 := by simp
  have e2 : (colMax xs - colMin xs) * 2 / (colMax xs - colMin xs) - 1 = 1 := by
    rw [mul_comm, mul_div_assoc, div_self hr]; norm_num
  refine ⟨fun x => (x - colMin xs) * 2 / (colMax xs - colMin xs) - 1, ?_, mono, ?_, ?_, ?_⟩
  · unfold minMaxScale
    rw [column_some]
    simp [divNaN, hr]
  · intro x hx
    constructor
    · rw [← e1]; exact mono.monotone (hmin' x hx)
    · calc _ ≤ _ := mono.monotone (hmax' x hx)
        _ = 1 := e2
  · intro x hx
    constructor
    · intro he y hy
      have : x = colMin xs := mono.injective (by simp only [he, e1])
      rw [this]; exact hmin' y hy
    · intro hle
      have : x = colMin xs := le_antisymm (hle _ hmin) (hmin' x hx)
      simp only [this, e1]
  · intro x hx
    constructor
    · intro he y hy
      have : x = colMax xs := mono.injective (by simp only [he, e2])
      rw [this]; exact hmax' y hy
    · intro hle
      have : x = colMax xs := le_antisymm (hmax' x hx) (hle _ hmax)
      simp only [this, e2]

example : Spec.Varies [3, 5, 4] := ⟨3, by simp, 5, by simp, by norm_num⟩

/-- C139: a column is lost as a whole (NaN everywhere) if it contains NaN or has only one value. -/
theorem C139_minmax_lost (c : List (Option ℝ)) (h : none ∈ c ∨ ∃ xs, c = xs.map some ∧ ¬ Spec.Varies xs) :
    minMaxScale c = c.map fun _ => none := by
  rcases h with h | ⟨xs, rfl, h⟩
  · unfold minMaxScale
    rw [column_none h]
  · unfold minMaxScale
    rw [column_some]
    have := (range_pos_iff xs).2 h
    simp only [divNaN, this, if_true, Option.map_none, List.map_map]
    rfl

/-- C139: so finite features are not always scaled to finite values. -/
theorem C139_minmax_false : ¬ ∀ xs : List ℝ, none ∉ minMaxScale (xs.map some) := by
  intro h
  apply h [2, 2]
  rw [C139_minmax_lost _ (.inr ⟨[2, 2], rfl, by rintro ⟨a, ha, b, hb, hab⟩; simp at ha hb; exact hab (by rw [ha, hb])⟩)]
  simp

theorem sum_map_sub (xs : List ℝ) (a : ℝ) : (xs.map fun x => x - a).sum = xs.sum - xs.length * a := by
  induction xs with
  | nil => simp
  | cons x xs ih => simp only [List.map_cons, List.sum_cons, ih, List.length_cons]; push_cast; ring

theorem colSum_map_div (xs : List ℝ) (f : ℝ → ℝ) (a : ℝ) : (xs.map fun x => f x / a).sum = (xs.map f).sum / a := by
  induction xs with
  | nil => simp
  | cons x xs ih => simp only [List.map_cons, List.sum_cons, ih]; ring

theorem sum_sq_zero (xs : List ℝ) (f : ℝ → ℝ) (h : (xs.map fun x => f x ^ 2).sum = 0) : ∀ x ∈ xs, f x = 0 := by
  induction xs with
  | nil => simp
  | cons x xs ih =>
    simp only [List.map_cons, List.sum_cons] at h
    have h1 := sq_nonneg (f x)
    have h2 : 0 ≤ (xs.map fun x => f x ^ 2).sum := List.sum_nonneg (by
      intro y hy
      simp only [List.mem_map] at hy
      obtain ⟨z, _, rfl⟩ := hy
      exact sq_nonneg _)
    intro y hy
    rcases List.mem_cons.1 hy with rfl | hy
    · exact pow_eq_zero_iff two_ne_zero |>.1 (by linarith)
    · exact ih (by linarith) y hy

theorem varies_length {xs : List ℝ} (h : Spec.Varies xs) : 1 < xs.length := by
  obtain ⟨a, ha, b, hb, hab⟩ := h
  match xs, ha, hb with
  | [x], ha, hb =>
    simp only [List.mem_singleton] at ha hb
    exact absurd (ha.trans hb.symm) hab
  | x :: y :: l, _, _ => simp

theorem sum_sq_pos {xs : List ℝ} (h : Spec.Varies xs) : 0 < (xs.map fun x => (x - colMean xs) ^ 2).sum := by
  have h0 : 0 ≤ (xs.map fun x => (x - colMean xs) ^ 2).sum := List.sum_nonneg (by
    intro y hy
    simp only [List.mem_map] at hy
    obtain ⟨z, _, rfl⟩ := hy
    exact sq_nonneg _)
  refine lt_of_le_of_ne h0 fun hc => ?_
  have := sum_sq_zero xs (fun x => x - colMean xs) hc.symm
  obtain ⟨a, ha, b, hb, hab⟩ := h
  exact hab (by linarith [this a ha, this b hb])

/-- C139: a column with different values is standardised by an increasing map: the mean becomes zero, the variance (with divisor `n - 1`) one. -/
theorem C139_standard (xs : List ℝ) (h : Spec.Varies xs) : ∃ f : ℝ → ℝ, standardise (xs.map some) = xs.map (fun x => some (f x)) ∧ StrictMono f ∧
    (xs.map f).sum = 0 ∧ (xs.map fun x => f x ^ 2).sum = xs.length - 1 := by
  have hlen := varies_length h
  have hl : (0 : ℝ) < xs.length - 1 := by
    have : (1 : ℝ) < xs.length := by exact_mod_cast hlen
    linarith
  have hl0 : (xs.length : ℝ) ≠ 0 := by linarith
  set v : ℝ := (xs.map fun x => (x - colMean xs) ^ 2).sum / ((xs.length : ℝ) - 1) with hv
  have hvpos : 0 < v := div_pos (sum_sq_pos h) hl
  have hs : 0 < Real.sqrt v := Real.sqrt_pos.2 hvpos
  have hstd : colStd xs = some (Real.sqrt v) := by
    unfold colStd
    rw [if_neg (by omega)]
  refine ⟨fun x => (x - colMean xs) / Real.sqrt v, ?_, ?_, ?_, ?_⟩
  · unfold standardise
    rw [column_some]
    simp [hstd, divNaN, hs.ne']
  · intro a b hab
    exact div_lt_div_of_pos_right (by linarith) hs
  · rw [colSum_map_div, sum_map_sub]
    unfold colMean
    rw [mul_div_cancel₀ _ hl0]
    simp
  · have : ∀ x, ((x - colMean xs) / Real.sqrt v) ^ 2 = (x - colMean xs) ^ 2 / v := by
      intro x
      rw [div_pow, Real.sq_sqrt hvpos.le]
    simp only [this]
    rw [colSum_map_div, hv]
    have hne := (sum_sq_pos h).ne'
    field_simp

/-- C139: a column is lost as a whole if it contains NaN or has only one value (in particular if there is one region). -/
theorem C139_standard_lost (c : List (Option ℝ)) (h : none ∈ c ∨ ∃ xs, c = xs.map some ∧ ¬ Spec.Varies xs) :
    standardise c = c.map fun _ => none := by
  rcases h with h | ⟨xs, rfl, h⟩
  · unfold standardise
    rw [column_none h]
  · unfold standardise
    rw [column_some]
    simp only [List.map_map]
    apply List.map_congr_left
    intro x hx
    simp only [Function.comp]
    unfold colStd
    by_cases hl : xs.length ≤ 1
    · simp [hl]
    · rw [if_neg hl]
      have hall : ∀ y ∈ xs, y = x := by
        intro y hy
        by_contra hc
        exact h ⟨y, hy, x, hx, hc⟩
      have hrep : xs = List.replicate xs.length x := List.eq_replicate_iff.2 ⟨rfl, hall⟩
      have hn : (xs.length : ℝ) ≠ 0 := by
        have : xs.length ≠ 0 := by omega
        exact_mod_cast this
      have hmean : colMean xs = x := by
        unfold colMean
        rw [show xs.sum = xs.length * x by conv_lhs => rw [hrep]; simp]
        field_simp
      have hz : (xs.map fun x => (x - colMean xs) ^ 2) = xs.map fun _ => 0 := by
        apply List.map_congr_left
        intro y hy
        rw [hmean, hall y hy]
        ring
      rw [hz]
      simp [divNaN]

/-- C139: so finite features are not always standardised to finite values; the network then predicts NaN everywhere. -/
theorem C139_standard_false : ¬ ∀ xs : List ℝ, none ∉ standardise (xs.map some) := by
  intro h
  apply h [2, 2]
  rw [C139_standard_lost _ (.inr ⟨[2, 2], rfl, by rintro ⟨a, ha, b, hb, hab⟩; simp at ha hb; exact hab (by rw [ha, hb])⟩)]
  simp

/-- C139: both scalings do not depend on the unit and the origin of the scale on which a feature is measured. -/
theorem C139_units (xs : List ℝ) (a b : ℝ) (ha : 0 < a) (h : Spec.Varies xs) :
    minMaxScale ((xs.map fun x => a * x + b).map some) = minMaxScale (xs.map some) ∧
      standardise ((xs.map fun x => a * x + b).map some) = standardise (xs.map some) := by
  have hne : xs ≠ [] := by
    obtain ⟨x, hx, _⟩ := h
    exact List.ne_nil_of_mem hx
  have hne' : xs.map (fun x => a * x + b) ≠ [] := by simpa using hne
  have hmin : colMin (xs.map fun x => a * x + b) = a * colMin xs + b := by
    obtain ⟨h1, h2⟩ := colMin_spec hne'
    obtain ⟨h3, h4⟩ := colMin_spec hne
    simp only [List.mem_map] at h1
    obtain ⟨y, hy, hy'⟩ := h1
    apply le_antisymm
    · exact h2 _ (List.mem_map.2 ⟨_, h3, rfl⟩)
    · rw [← hy']
      have := mul_le_mul_of_nonneg_left (h4 y hy) ha.le
      linarith
  have hmax : colMax (xs.map fun x => a * x + b) = a * colMax xs + b := by
    obtain ⟨h1, h2⟩ := colMax_spec hne'
    obtain ⟨h3, h4⟩ := colMax_spec hne
    simp only [List.mem_map] at h1
    obtain ⟨y, hy, hy'⟩ := h1
    apply le_antisymm
    · rw [← hy']
      have := mul_le_mul_of_nonneg_left (h4 y hy) ha.le
      linarith
    · exact h2 _ (List.mem_map.2 ⟨_, h3, rfl⟩)
  have hlen := varies_length h
  have hl0 : (xs.length : ℝ) ≠ 0 := by
    have : xs.length ≠ 0 := by omega
    exact_mod_cast this
  have hsum : (xs.map fun x => a * x + b).sum = a * xs.sum + xs.length * b := by
    clear hmin hmax hne hne' hlen hl0 h
    induction xs with
    | nil => simp
    | cons x xs ih => simp only [List.map_cons, List.sum_cons, ih, List.length_cons]; push_cast; ring
  have hmean : colMean (xs.map fun x => a * x + b) = a * colMean xs + b := by
    unfold colMean
    rw [hsum, List.length_map]
    field_simp
  have hr : colMax xs - colMin xs ≠ 0 := fun hc => (range_pos_iff xs).1 hc h
  have ha0 := ha.ne'
  have hl : (0 : ℝ) < xs.length - 1 := by
    have : (1 : ℝ) < xs.length := by exact_mod_cast hlen
    linarith
  constructor
  · unfold minMaxScale
    rw [column_some, column_some]
    simp only [List.map_map, hmin, hmax]
    apply List.map_congr_left
    intro x _
    have e1 : a * colMax xs + b - (a * colMin xs + b) = a * (colMax xs - colMin xs) := by ring
    have e2 : (a * x + b - (a * colMin xs + b)) * 2 = a * ((x - colMin xs) * 2) := by ring
    simp only [Function.comp, divNaN, e1, e2, mul_eq_zero, ha0, hr, or_self, if_false, Option.map_some]
    rw [mul_div_mul_left _ _ ha0]
  · unfold standardise
    rw [column_some, column_some]
    simp only [List.map_map]
    apply List.map_congr_left
    intro x _
    have hstd : colStd (xs.map fun x => a * x + b) = (colStd xs).map (a * ·) := by
      unfold colStd
      simp only [List.length_map]
      rw [if_neg (by omega), if_neg (by omega), Option.map_some]
      congr 1
      have : ((xs.map fun x => a * x + b).map fun x => (x - colMean (xs.map fun x => a * x + b)) ^ 2).sum =
          a ^ 2 * (xs.map fun x => (x - colMean xs) ^ 2).sum := by
        rw [hmean, List.map_map, ← List.sum_map_mul_left]
        congr 1
        apply List.map_congr_left
        intro y _
        simp only [Function.comp]
        ring
      rw [this, mul_div_assoc, Real.sqrt_mul (sq_nonneg a), Real.sqrt_sq ha.le]
    rw [hmean, hstd]
    cases hc : colStd xs with
    | none => rfl
    | some s =>
      simp only [Function.comp, Option.map_some, Option.bind_some, divNaN, mul_eq_zero, ha0, false_or]
      split
      · rfl
      · rw [show a * x + b - (a * colMean xs + b) = a * (x - colMean xs) by ring, mul_div_mul_left _ _ ha0]

end GeNSIT
