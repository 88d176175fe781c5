import Verif.Stats.Spec
import Mathlib.Algebra.Order.Floor.Ring
import Mathlib.Algebra.Order.Floor.Semiring
import Mathlib.Data.List.Sort
import Mathlib.Data.Rat.Floor
import Mathlib.Tactic.Linarith
import Mathlib.Tactic.NormNum

/-!
# C59: the highest-density interval
-/

set_option linter.unusedSectionVars false

namespace GeNSIT

variable {K : Type} [Field K] [LinearOrder K] [IsStrictOrderedRing K]

/-! ## Model -/

/-- `DataArray.argmin(dim)`: index and value of the first smallest entry
(math_utils.py:373). -/
def argminFirst : List K → Option (ℕ × K)
  | [] => none
  | w :: ws =>
    match argminFirst ws with
    | none => some (0, w)
    | some (i, v) => if w ≤ v then some (0, w) else some (i + 1, v)

/-- `calculate_min_interval` (math_utils.py:341-385) along the sample dimension, for one cell.
`idx0` is `interval_index0`.  With no window left the code raises (line 369; for a mass above one
`xr.align` raises on the different lengths). -/
def minInterval (s : List K) (idx0 : ℕ) : Option (K × K) :=
  let left := s.take (s.length - idx0)
  let right := s.drop idx0
  let width := List.zipWith (fun r l => r - l) right left
  match argminFirst width with
  | none => none
  | some (i, _) =>
    match s[i]?, s[i + idx0]? with
    | some lo, some hi => some (lo, hi)
    | _, _ => none

/-- The interval `coverage_probability` (math_utils.py:299-331) computes for one cell: sort the samples,
(any sorting algorithm gives the same list), then take the shortest window of `floor(mass*N)` gaps.  Exact arithmetic: the code computes
`1.0 - (1 - region_mass)` in floating point. -/
def hpd [FloorSemiring K] (x : List K) (mass : K) : Option (K × K) :=
  minInterval (x.insertionSort (· ≤ ·)) ⌊(1 - (1 - mass)) * (x.length : K)⌋₊

/-- Coverage flag of one cell (math_utils.py:332). -/
def covered [FloorSemiring K] (x : List K) (mass truth : K) : Option Bool :=
  (hpd x mass).map fun b => decide (truth ≥ b.1) && decide (truth ≤ b.2)

/-! ## Lemmas -/

theorem argminFirst_none (w : List K) (h : argminFirst w = none) : w = [] := by
  cases w with
  | nil => rfl
  | cons a w =>
    unfold argminFirst at h
    split at h
    · cases h
    · split at h <;> cases h

theorem argminFirst_spec (w : List K) (i : ℕ) (v : K) (h : argminFirst w = some (i, v)) :
    w[i]? = some v ∧ ∀ y ∈ w, v ≤ y := by
  induction w generalizing i v with
  | nil => cases h
  | cons a w ih =>
    unfold argminFirst at h
    split at h
    · next hn =>
      cases h
      have := argminFirst_none w hn
      subst this
      simp
    · next j u hs =>
      obtain ⟨h1, h2⟩ := ih j u hs
      split at h
      · next hle =>
        cases h
        refine ⟨rfl, ?_⟩
        intro y hy
        rcases List.mem_cons.1 hy with rfl | hy
        · exact le_rfl
        · exact hle.trans (h2 y hy)
      · next hlt =>
        cases h
        refine ⟨by simpa using h1, ?_⟩
        intro y hy
        rcases List.mem_cons.1 hy with rfl | hy
        · exact le_of_not_ge hlt
        · exact h2 y hy

theorem sorted_le_of_lt_countP {s : List K} (hs : s.Pairwise (· ≤ ·)) (b : K) (j : ℕ) (hj : j < s.length)
    (h : j < s.countP fun v => decide (v ≤ b)) : s[j] ≤ b := by
  induction s generalizing j with
  | nil => simp at hj
  | cons a s ih =>
    rw [List.pairwise_cons] at hs
    by_cases hab : a ≤ b
    · cases j with
      | zero => exact hab
      | succ j =>
        rw [List.countP_cons_of_pos (by simpa using hab)] at h
        exact ih hs.2 j (by simpa using hj) (by omega)
    · exfalso
      have h0 : (a :: s).countP (fun v => decide (v ≤ b)) = 0 := by
        rw [List.countP_eq_zero]
        intro y hy
        rcases List.mem_cons.1 hy with rfl | hy
        · simpa using hab
        · have := hs.1 y hy
          simp only [decide_eq_true_eq, not_le]
          exact lt_of_lt_of_le (not_le.1 hab) this
      omega

theorem sorted_ge_of_countP_le {s : List K} (hs : s.Pairwise (· ≤ ·)) (a : K) (j : ℕ) (hj : j < s.length)
    (h : (s.countP fun v => decide (v < a)) ≤ j) : a ≤ s[j] := by
  induction s generalizing j with
  | nil => simp at hj
  | cons c s ih =>
    rw [List.pairwise_cons] at hs
    by_cases hca : c < a
    · rw [List.countP_cons_of_pos (by simpa using hca)] at h
      cases j with
      | zero => omega
      | succ j => exact ih hs.2 j (by simpa using hj) (by omega)
    · cases j with
      | zero => exact not_lt.1 hca
      | succ j =>
        have : c ≤ (c :: s)[j + 1] := by
          rw [List.getElem_cons_succ]
          exact hs.1 _ (List.getElem_mem _)
        exact (not_lt.1 hca).trans this

theorem countP_le_split (s : List K) (a b : K) (hab : a ≤ b) :
    (s.countP fun v => decide (v ≤ b)) =
      (s.countP fun v => decide (v < a)) + Spec.inside s a b := by
  unfold Spec.inside
  induction s with
  | nil => rfl
  | cons c s ih =>
    simp only [List.countP_cons, ih, decide_eq_true_eq]
    rcases lt_or_ge c a with h1 | h1
    · have h2 : c ≤ b := h1.le.trans hab
      simp [h1, h2, not_le.2 h1]; omega
    · by_cases h2 : c ≤ b
      · simp [not_lt.2 h1, h1, h2]; omega
      · simp [not_lt.2 h1, h2]

/-- Window form of the answer. -/
theorem minInterval_spec (s : List K) (k : ℕ) (hk : k < s.length) :
    ∃ i, ∃ hi : i + k < s.length, minInterval s k = some (s[i], s[i + k]) ∧
      ∀ j, ∀ hj : j + k < s.length, s[i + k] - s[i] ≤ s[j + k] - s[j] := by
  have hw : ∀ j, j + k < s.length → ∀ v, (List.zipWith (fun r l => r - l) (s.drop k)
      (s.take (s.length - k)))[j]? = some v → ∀ hj : j + k < s.length, v = s[j + k] - s[j] := by
    intro j hj v hv hj'
    have h1 : (s.drop k)[j]? = some s[j + k] := by
      rw [List.getElem?_drop, Nat.add_comm, List.getElem?_eq_getElem hj']
    have h2 : (s.take (s.length - k))[j]? = some (s[j]'(by omega)) := by
      rw [List.getElem?_take_of_lt (by omega), List.getElem?_eq_getElem]
    rw [List.getElem?_zipWith, h1, h2] at hv
    exact (Option.some.inj hv).symm
  have hlen : (List.zipWith (fun r l => r - l) (s.drop k) (s.take (s.length - k))).length =
      s.length - k := by
    simp
  unfold minInterval
  simp only
  cases ha : argminFirst (List.zipWith (fun r l => r - l) (s.drop k) (s.take (s.length - k))) with
  | none =>
    have := argminFirst_none _ ha
    rw [this] at hlen
    simp at hlen
    omega
  | some p =>
    obtain ⟨i, v⟩ := p
    obtain ⟨h1, h2⟩ := argminFirst_spec _ i v ha
    have hi : i + k < s.length := by
      obtain ⟨h3, _⟩ := List.getElem?_eq_some_iff.1 h1
      omega
    refine ⟨i, hi, ?_, ?_⟩
    · have g1 := List.getElem?_eq_getElem hi
      have g2 : s[i]? = some (s[i]'(by omega)) := List.getElem?_eq_getElem (by omega)
      simp only [g1, g2]
    · intro j hj
      rw [← hw i hi v h1 hi]
      have h3 : j < (List.zipWith (fun r l => r - l) (s.drop k) (s.take (s.length - k))).length := by
        omega
      have h4 := h2 _ (List.getElem_mem h3)
      rwa [hw j hj _ (List.getElem?_eq_getElem h3) hj] at h4

theorem inside_window (s : List K) (hs : s.Pairwise (· ≤ ·)) (i k : ℕ) (hi : i + k < s.length) :
    k + 1 ≤ Spec.inside s s[i] s[i + k] := by
  have hle : s[i] ≤ s[i + k] := by
    rcases Nat.eq_zero_or_pos k with rfl | hk
    · exact le_rfl
    · exact List.pairwise_iff_getElem.1 hs i (i + k) (by omega) hi (by omega)
  have h1 := countP_le_split s s[i] s[i + k] hle
  have h2 : (s.countP fun v => decide (v < s[i])) ≤ i := by
    by_contra hc
    have := sorted_le_of_lt_countP (s := s) hs s[i]
    -- every entry before index `i + 1` would be below `s[i]`
    have key : ∀ (l : List K), l.Pairwise (· ≤ ·) → ∀ (a : K) (j : ℕ) (hj : j < l.length),
        j < (l.countP fun v => decide (v < a)) → l[j] < a := by
      intro l hl a
      induction l with
      | nil => intro j hj; simp at hj
      | cons c l ih =>
        intro j hj hc
        rw [List.pairwise_cons] at hl
        by_cases hca : c < a
        · cases j with
          | zero => exact hca
          | succ j =>
            rw [List.countP_cons_of_pos (by simpa using hca)] at hc
            exact ih hl.2 j (by simpa using hj) (by omega)
        · exfalso
          have h0 : (c :: l).countP (fun v => decide (v < a)) = 0 := by
            rw [List.countP_eq_zero]
            intro y hy
            rcases List.mem_cons.1 hy with rfl | hy
            · simpa using hca
            · have := hl.1 y hy
              simp only [decide_eq_true_eq, not_lt]
              exact (not_lt.1 hca).trans this
          omega
    exact lt_irrefl _ (key s hs s[i] i (by omega) (by omega))
  have h3 : i + k < (s.countP fun v => decide (v ≤ s[i + k])) := by
    by_contra hc
    -- the complement: entries above `s[i+k]` start after index `i + k`
    have hsub : (s.take (i + k + 1)).countP (fun v => decide (v ≤ s[i + k])) = i + k + 1 := by
      have hl : (s.take (i + k + 1)).length = i + k + 1 := by
        rw [List.length_take]; omega
      conv_rhs => rw [← hl]
      rw [List.countP_eq_length]
      intro y hy
      obtain ⟨j, hj, rfl⟩ := List.mem_iff_getElem.1 hy
      rw [List.getElem_take]
      rw [hl] at hj
      simp only [decide_eq_true_eq]
      rcases Nat.lt_or_ge j (i + k) with hj' | hj'
      · exact List.pairwise_iff_getElem.1 hs j (i + k) (by omega) hi hj'
      · have : j = i + k := by omega
        subst this; exact le_rfl
    have := (List.take_sublist (i + k + 1) s).countP_le (p := fun v => decide (v ≤ s[i + k]))
    omega
  omega

/-! ## C59 -/

/-- **C59.**  For every non-empty list of samples and every mass below one, the interval exists, its end
points are samples, it contains more than the requested fraction of the samples, and no interval
whatsoever that contains more than this fraction is shorter. -/
theorem C59_hpd [FloorSemiring K] (x : List K) (mass : K) (hx : x ≠ []) (h0 : 0 ≤ mass) (h1 : mass < 1) :
    ∃ lo hi, hpd x mass = some (lo, hi) ∧ lo ∈ x ∧ hi ∈ x ∧ lo ≤ hi ∧
      mass * x.length < Spec.inside x lo hi ∧
      ∀ a b, mass * x.length < Spec.inside x a b → hi - lo ≤ b - a := by
  set s := x.insertionSort (· ≤ ·) with hs
  have hperm : s.Perm x := List.perm_insertionSort _ x
  have hsort : s.Pairwise (· ≤ ·) := List.pairwise_insertionSort _ x
  have hlen : s.length = x.length := hperm.length_eq
  have hins : ∀ a b, Spec.inside s a b = Spec.inside x a b := fun a b => hperm.countP_eq _
  have hpos : (0 : K) < x.length := by
    exact_mod_cast List.length_pos_of_ne_nil hx
  set k := ⌊(1 - (1 - mass)) * (x.length : K)⌋₊ with hk
  have hmass : (1 - (1 - mass)) * (x.length : K) = mass * x.length := by ring
  have hnn : 0 ≤ mass * (x.length : K) := mul_nonneg h0 hpos.le
  have hklt : k < s.length := by
    rw [hlen, hk, hmass, Nat.floor_lt hnn]
    nlinarith
  have hcount : ∀ c : ℕ, mass * (x.length : K) < c ↔ k + 1 ≤ c := by
    intro c
    rw [hk, hmass, Nat.add_one_le_iff, Nat.floor_lt hnn]
  obtain ⟨i, hi, e, hmin⟩ := minInterval_spec s k hklt
  refine ⟨s[i], s[i + k], e, ?_, ?_, ?_, ?_, ?_⟩
  · exact hperm.mem_iff.1 (List.getElem_mem _)
  · exact hperm.mem_iff.1 (List.getElem_mem _)
  · rcases Nat.eq_zero_or_pos k with hk0 | hk0
    · simp [hk0]
    · exact List.pairwise_iff_getElem.1 hsort i (i + k) (by omega) hi (by omega)
  · rw [hcount, ← hins]
    exact inside_window s hsort i k hi
  · intro a b hab
    rw [hcount, ← hins] at hab
    have hle : a ≤ b := by
      by_contra hc
      have h0 : Spec.inside s a b = 0 := by
        unfold Spec.inside
        rw [List.countP_eq_zero]
        intro v _
        simp only [decide_eq_true_eq, not_and]
        intro h1 h2
        exact hc (h1.trans h2)
      omega
    have hsplit := countP_le_split s a b hle
    set j := s.countP fun v => decide (v < a) with hj
    have hcl : (s.countP fun v => decide (v ≤ b)) ≤ s.length := List.countP_le_length
    have hjk : j + k < s.length := by omega
    have e1 : a ≤ s[j] := sorted_ge_of_countP_le hsort a j (by omega) (by omega)
    have e2 : s[j + k] ≤ b := sorted_le_of_lt_countP hsort b (j + k) hjk (by omega)
    have := hmin j hjk
    linarith

/-- **C59.**  With no sample, or a mass of one or more, the function raises instead of returning an
interval. -/
theorem C59_raises [FloorSemiring K] (x : List K) (mass : K) (h : x = [] ∨ 1 ≤ mass) : hpd x mass = none := by
  have hk : x.length ≤ ⌊(1 - (1 - mass)) * (x.length : K)⌋₊ := by
    rcases h with rfl | h
    · simp
    · apply Nat.le_floor
      have : (0 : K) ≤ x.length := Nat.cast_nonneg _
      nlinarith
  unfold hpd minInterval
  simp only
  rw [List.drop_eq_nil_of_le (by rw [List.length_insertionSort]; exact hk)]
  rfl

/-- **C59.**  The coverage flag of a cell tells whether the true value lies in that interval. -/
theorem C59_coverage [FloorSemiring K] (x : List K) (mass truth lo hi : K) (h : hpd x mass = some (lo, hi)) :
    covered x mass truth = some (decide (lo ≤ truth ∧ truth ≤ hi)) := by
  unfold covered
  rw [h]
  simp [Bool.decide_and]

example : hpd [(5 : ℚ), 1, 2, 9, 3] (1 / 2) = some (1, 3) := by decide +kernel
example : covered [(5 : ℚ), 1, 2, 9, 3] (1 / 2) 4 = some false := by decide +kernel

end GeNSIT
