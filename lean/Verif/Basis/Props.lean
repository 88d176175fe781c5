import Verif.Basis.Lemmas
import Mathlib.Logic.Relation
import Mathlib.Tactic.FinCases

/-!
# Property theorems C01, C02, C03 (Markov basis moves)
-/

namespace GeNSIT

open Spec

/-- The constrained axes are exactly the row margin and the derived total. -/
def RowsOnly (constrained : List Ax) : Prop :=
  constrained.length = 2 ∧ ∀ a, a ∈ constrained ↔ a = [1] ∨ a = [0, 1]

/-- The constrained axes are exactly the column margin and the derived total. -/
def ColsOnly (constrained : List Ax) : Prop :=
  constrained.length = 2 ∧ ∀ a, a ∈ constrained ↔ a = [0] ∨ a = [0, 1]

/-- All three margins are constrained. -/
def BothMargins (constrained : List Ax) : Prop :=
  constrained.length = 3 ∧ ∀ a, a ∈ constrained ↔ a = [0] ∨ a = [1] ∨ a = [0, 1]

theorem sum_shift {k : Nat} (f : Fin k → Int) (a b : Fin k) (e : Int) :
    ∑ x, (f x + ((if x = a then e else 0) - (if x = b then e else 0))) = ∑ x, f x := by
  rw [Finset.sum_add_distrib, Finset.sum_sub_distrib]
  simp

theorem total_of_rows {m n : Nat} {t t' : Table m n} (h : ∀ i, rowSum t' i = rowSum t i) : total t' = total t :=
  Finset.sum_congr rfl fun i _ => h i

theorem total_of_cols {m n : Nat} {t t' : Table m n} (h : ∀ j, colSum t' j = colSum t j) : total t' = total t := by
  have e : ∀ s : Table m n, total s = ∑ j, colSum s j := fun s => Finset.sum_comm
  rw [e, e]
  exact Finset.sum_congr rfl fun j _ => h j

/-- Membership in the one-margin basis, row case. -/
theorem rows_basis_eq {m n : Nat} {constrained : List Ax} (hc : RowsOnly constrained) (fixed : List (Cell m n))
    (pick : Cell m n → Nat) :
    generateBasis constrained fixed pick = some ((pairsOf rowCand (freeCells fixed)).map pairMove) := by
  simp only [generateBasis, hc.1, if_true, oneMarginBasis]
  rw [oneMarginPairs_eq (activeCandidates_rows hc.2) _ _ (fun _ h => h)]
  rfl

theorem cols_basis_eq {m n : Nat} {constrained : List Ax} (hc : ColsOnly constrained) (fixed : List (Cell m n))
    (pick : Cell m n → Nat) :
    generateBasis constrained fixed pick = some ((pairsOf colCand (freeCells fixed)).map pairMove) := by
  simp only [generateBasis, hc.1, if_true, oneMarginBasis]
  rw [oneMarginPairs_eq (activeCandidates_cols hc.2) _ _ (fun _ h => h)]
  rfl

theorem mem_rowPairs {m n : Nat} (fixed : List (Cell m n)) (a b : Cell m n) :
    (a, b) ∈ pairsOf rowCand (freeCells fixed) ↔ a ∉ fixed ∧ b ∉ fixed ∧ a.1 = b.1 ∧ a.2 < b.2 := by
  rw [mem_pairsOf_sorted (freeCells_sorted fixed), mem_freeCells, mem_freeCells]
  simp only [rowCand, Bool.and_eq_true, decide_eq_true_eq, CellLt]
  constructor
  · rintro ⟨h1, h2, ⟨h3, h4⟩, _⟩; exact ⟨h1, h2, h4.symm, h3⟩
  · rintro ⟨h1, h2, h3, h4⟩; exact ⟨h1, h2, ⟨h4, h3.symm⟩, Or.inr ⟨h3, h4⟩⟩

theorem mem_colPairs {m n : Nat} (fixed : List (Cell m n)) (a b : Cell m n) :
    (a, b) ∈ pairsOf colCand (freeCells fixed) ↔ a ∉ fixed ∧ b ∉ fixed ∧ a.2 = b.2 ∧ a.1 < b.1 := by
  rw [mem_pairsOf_sorted (freeCells_sorted fixed), mem_freeCells, mem_freeCells]
  simp only [colCand, Bool.and_eq_true, decide_eq_true_eq, CellLt]
  constructor
  · rintro ⟨h1, h2, ⟨h3, h4⟩, _⟩; exact ⟨h1, h2, h4.symm, h3⟩
  · rintro ⟨h1, h2, h3, h4⟩; exact ⟨h1, h2, ⟨h4, h3.symm⟩, Or.inl h4⟩

/-- Pointwise effect of a two-cell move. -/
theorem applyPair {m n : Nat} (t : Table m n) {a b : Cell m n} (h : a ≠ b) (eps : Int) (i : Fin m) (j : Fin n) :
    applyMove t (pairMove (a, b)) eps i j =
      t i j + ((if (i, j) = a then eps else 0) - (if (i, j) = b then eps else 0)) := by
  rw [applyMove_apply _ _ _ _ _ (pairMove_keys h), pairMove_at h]
  by_cases h1 : (i, j) = a
  · have : (i, j) ≠ b := fun h2 => h (h1 ▸ h2)
    simp [h1, h]
  · by_cases h2 : (i, j) = b
    · simp [h2, h.symm]
    · simp [h1, h2]

/-! ## C01 -/

/-- **C01, rows constrained.**  Every move of the generated basis, added any integer number of times to any
table, changes exactly two distinct free cells (by `+eps` and `-eps`) and leaves all row sums, the grand total
and all fixed cells unchanged. -/
theorem C01_one_margin_moves_rows {m n : Nat} (constrained : List Ax) (hc : RowsOnly constrained)
    (fixed : List (Cell m n)) (pick : Cell m n → Nat) (basis : List (Move m n))
    (hb : generateBasis constrained fixed pick = some basis) (mv : Move m n) (hmv : mv ∈ basis)
    (t : Table m n) (eps : Int) :
    (∃ a b : Cell m n, a ≠ b ∧ a ∉ fixed ∧ b ∉ fixed ∧ a.1 = b.1 ∧ ∀ i j, applyMove t mv eps i j =
        t i j + ((if (i, j) = a then eps else 0) - (if (i, j) = b then eps else 0))) ∧
    (∀ i, rowSum (applyMove t mv eps) i = rowSum t i) ∧ total (applyMove t mv eps) = total t ∧
    AgreeAt fixed (applyMove t mv eps) t := by
  rw [rows_basis_eq hc] at hb
  obtain rfl := Option.some.inj hb
  obtain ⟨⟨a, b⟩, hab, rfl⟩ := List.mem_map.mp hmv
  obtain ⟨ha, hb, h1, h2⟩ := (mem_rowPairs fixed a b).mp hab
  have hne : a ≠ b := by rintro rfl; exact lt_irrefl _ h2
  have heff := applyPair t hne eps
  have hrow : ∀ i, rowSum (applyMove t (pairMove (a, b)) eps) i = rowSum t i := by
    intro i
    simp only [rowSum, heff]
    by_cases hi : i = a.1
    · rw [← sum_shift (t i) a.2 b.2 eps]
      apply Finset.sum_congr rfl
      intro j _
      have e1 : ((i, j) = a) = (j = a.2) := by simp [Prod.ext_iff, hi]
      have e2 : ((i, j) = b) = (j = b.2) := by simp [Prod.ext_iff, hi, h1]
      simp only [e1, e2]
    · apply Finset.sum_congr rfl
      intro j _
      have e1 : (i, j) ≠ a := fun h => hi (congrArg Prod.fst h)
      have e2 : (i, j) ≠ b := fun h => hi ((congrArg Prod.fst h).trans h1.symm)
      simp [e1, e2]
  refine ⟨⟨a, b, hne, ha, hb, h1, heff⟩, hrow, total_of_rows hrow, ?_⟩
  intro i j hij
  rw [heff]
  have e1 : (i, j) ≠ a := fun h => ha (h ▸ hij)
  have e2 : (i, j) ≠ b := fun h => hb (h ▸ hij)
  simp [e1, e2]

/-- **C01, columns constrained.** -/
theorem C01_one_margin_moves_cols {m n : Nat} (constrained : List Ax) (hc : ColsOnly constrained)
    (fixed : List (Cell m n)) (pick : Cell m n → Nat) (basis : List (Move m n))
    (hb : generateBasis constrained fixed pick = some basis) (mv : Move m n) (hmv : mv ∈ basis)
    (t : Table m n) (eps : Int) :
    (∃ a b : Cell m n, a ≠ b ∧ a ∉ fixed ∧ b ∉ fixed ∧ a.2 = b.2 ∧ ∀ i j, applyMove t mv eps i j =
        t i j + ((if (i, j) = a then eps else 0) - (if (i, j) = b then eps else 0))) ∧
    (∀ j, colSum (applyMove t mv eps) j = colSum t j) ∧ total (applyMove t mv eps) = total t ∧
    AgreeAt fixed (applyMove t mv eps) t := by
  rw [cols_basis_eq hc] at hb
  obtain rfl := Option.some.inj hb
  obtain ⟨⟨a, b⟩, hab, rfl⟩ := List.mem_map.mp hmv
  obtain ⟨ha, hb, h1, h2⟩ := (mem_colPairs fixed a b).mp hab
  have hne : a ≠ b := by rintro rfl; exact lt_irrefl _ h2
  have heff := applyPair t hne eps
  have hcol : ∀ j, colSum (applyMove t (pairMove (a, b)) eps) j = colSum t j := by
    intro j
    simp only [colSum, heff]
    by_cases hj : j = a.2
    · rw [← sum_shift (fun i => t i j) a.1 b.1 eps]
      apply Finset.sum_congr rfl
      intro i _
      have e1 : ((i, j) = a) = (i = a.1) := by simp [Prod.ext_iff, hj]
      have e2 : ((i, j) = b) = (i = b.1) := by simp [Prod.ext_iff, hj, h1]
      simp only [e1, e2]
    · apply Finset.sum_congr rfl
      intro i _
      have e1 : (i, j) ≠ a := fun h => hj (congrArg Prod.snd h)
      have e2 : (i, j) ≠ b := fun h => hj ((congrArg Prod.snd h).trans h1.symm)
      simp [e1, e2]
  refine ⟨⟨a, b, hne, ha, hb, h1, heff⟩, hcol, total_of_cols hcol, ?_⟩
  intro i j hij
  rw [heff]
  have e1 : (i, j) ≠ a := fun h => ha (h ▸ hij)
  have e2 : (i, j) ≠ b := fun h => hb (h ▸ hij)
  simp [e1, e2]

example : RowsOnly (readAxisConstraints 2 (some [[1]])).constrained ∧
    ColsOnly (readAxisConstraints 2 (some [[0]])).constrained ∧
    BothMargins (readAxisConstraints 2 (some [[0], [1]])).constrained := by
  have h1 : (readAxisConstraints 2 (some [[1]])).constrained = [[0, 1], [1]] := by decide +kernel
  have h2 : (readAxisConstraints 2 (some [[0]])).constrained = [[0], [0, 1]] := by decide +kernel
  have h3 : (readAxisConstraints 2 (some [[0], [1]])).constrained = [[0], [0, 1], [1]] := by decide +kernel
  rw [h1, h2, h3]
  refine ⟨⟨rfl, ?_⟩, ⟨rfl, ?_⟩, ⟨rfl, ?_⟩⟩ <;> intro a <;> simp [or_comm]
example : generateBasis (m := 2) (n := 3) [[0, 1], [1]] [(0, 1)] (fun _ => 0) =
    some [[((0, 0), 1), ((0, 2), -1)], [((1, 0), 1), ((1, 1), -1)], [((1, 0), 1), ((1, 2), -1)],
      [((1, 1), 1), ((1, 2), -1)]] := by decide +kernel

/-! ## C02 -/

/-- **C02.**  With both margins constrained, whatever partner cells the generator draws: the generator returns
a basis, and every move of it, added any integer number of times to any table, changes exactly four distinct
free cells forming a rectangle and leaves all row sums, column sums, the total and all fixed cells unchanged. -/
theorem C02_both_margin_moves {m n : Nat} (constrained : List Ax) (hc : BothMargins constrained)
    (fixed : List (Cell m n)) (pick : Cell m n → Nat) :
    ∃ basis, generateBasis constrained fixed pick = some basis ∧
    ∀ mv ∈ basis, ∀ (t : Table m n) (eps : Int),
      (∃ i₁ i₂ : Fin m, ∃ j₁ j₂ : Fin n, i₁ < i₂ ∧ j₁ < j₂ ∧
        (i₁, j₁) ∉ fixed ∧ (i₂, j₂) ∉ fixed ∧ (i₁, j₂) ∉ fixed ∧ (i₂, j₁) ∉ fixed ∧
        ∀ i j, applyMove t mv eps i j = t i j +
          eps * (((if i = i₁ then 1 else 0) - (if i = i₂ then 1 else 0)) *
            ((if j = j₁ then 1 else 0) - (if j = j₂ then 1 else 0)))) ∧
      (∀ i, rowSum (applyMove t mv eps) i = rowSum t i) ∧
      (∀ j, colSum (applyMove t mv eps) j = colSum t j) ∧
      total (applyMove t mv eps) = total t ∧ AgreeAt fixed (applyMove t mv eps) t := by
  obtain ⟨basis, hb, hall⟩ := bothMarginLoop_mem (activeCandidates_both hc.2) (freeCells fixed) pick
    (freeCells fixed) (freeCells_sorted fixed)
  refine ⟨basis, by simp [generateBasis, hc.1, bothMarginBasis, hb], ?_⟩
  intro mv hmv t eps
  obtain ⟨a, b, _, _, hlt, hp, ha, hb, hab, hba, rfl⟩ := hall mv hmv
  simp only [mem_freeCells] at ha hb hab hba
  simp only [bothCand, Bool.and_eq_true, decide_eq_true_eq] at hp
  obtain ⟨hp1, hp2⟩ := hp
  have hlt1 : a.1 < b.1 := by
    rcases hlt with h | h
    · exact h
    · exact absurd h.1.symm hp1
  have hne2 : a.2 ≠ b.2 := fun h => by rw [h] at hp2; exact lt_irrefl _ hp2
  have heff : ∀ i j, applyMove t (cornerMove a b) eps i j = t i j +
          eps * (((if i = a.1 then 1 else 0) - (if i = b.1 then 1 else 0)) *
            ((if j = a.2 then 1 else 0) - (if j = b.2 then 1 else 0))) := by
    intro i j
    rw [applyMove_apply _ _ _ _ _ (cornerMove_keys hp1.symm hne2), cornerMove_at hp1.symm hne2]
  have hz : ∀ (k : Nat) (x y : Fin k), ∑ z : Fin k, ((if z = x then (1 : Int) else 0) - (if z = y then 1 else 0)) = 0 := by
    intro k x y; rw [Finset.sum_sub_distrib]; simp
  have hrow : ∀ i, rowSum (applyMove t (cornerMove a b) eps) i = rowSum t i := by
    intro i
    simp only [rowSum, heff]
    rw [Finset.sum_add_distrib, ← Finset.mul_sum, ← Finset.mul_sum, hz]; simp
  have hcol : ∀ j, colSum (applyMove t (cornerMove a b) eps) j = colSum t j := by
    intro j
    simp only [colSum, heff]
    rw [Finset.sum_add_distrib, ← Finset.mul_sum, ← Finset.sum_mul, hz]; simp
  refine ⟨⟨a.1, b.1, a.2, b.2, hlt1, hp2, ha, hb, hab, hba, heff⟩, hrow, hcol, total_of_rows hrow, ?_⟩
  intro i j hij
  rw [heff]
  have e1 : ¬ (i = a.1 ∧ j = a.2) := by rintro ⟨rfl, rfl⟩; exact ha hij
  have e2 : ¬ (i = a.1 ∧ j = b.2) := by rintro ⟨rfl, rfl⟩; exact hab hij
  have e3 : ¬ (i = b.1 ∧ j = a.2) := by rintro ⟨rfl, rfl⟩; exact hba hij
  have e4 : ¬ (i = b.1 ∧ j = b.2) := by rintro ⟨rfl, rfl⟩; exact hb hij
  by_cases h1 : i = a.1 <;> by_cases h2 : i = b.1 <;> by_cases h3 : j = a.2 <;> by_cases h4 : j = b.2 <;>
    simp_all

example : generateBasis (m := 2) (n := 3) [[0], [0, 1], [1]] [] (fun _ => 0) =
    some [[((0, 0), 1), ((1, 1), 1), ((0, 1), -1), ((1, 0), -1)],
      [((0, 1), 1), ((1, 2), 1), ((0, 2), -1), ((1, 1), -1)]] := by decide +kernel

/-! ## C03 -/

/-- **C03, rows.**  The one-margin basis consists, once each, of the moves `+1` at `a`, `-1` at `b` for exactly
the pairs of free cells `a`, `b` in one row with `a` left of `b`: every unordered pair of distinct free
cells of a row occurs exactly once. -/
theorem C03_rows_complete {m n : Nat} (constrained : List Ax) (hc : RowsOnly constrained)
    (fixed : List (Cell m n)) (pick : Cell m n → Nat) :
    ∃ pairs : List (Cell m n × Cell m n),
      generateBasis constrained fixed pick = some (pairs.map fun p => [(p.1, 1), (p.2, -1)]) ∧ pairs.Nodup ∧
      (∀ a b, (a, b) ∈ pairs ↔ a ∉ fixed ∧ b ∉ fixed ∧ a.1 = b.1 ∧ a.2 < b.2) ∧
      (∀ a b, a ∉ fixed → b ∉ fixed → a.1 = b.1 → a ≠ b →
        ((a, b) ∈ pairs ∧ (b, a) ∉ pairs) ∨ ((b, a) ∈ pairs ∧ (a, b) ∉ pairs)) := by
  refine ⟨pairsOf rowCand (freeCells fixed), ?_, pairsOf_nodup (freeCells_sorted fixed), mem_rowPairs fixed, ?_⟩
  · rw [rows_basis_eq hc]
    congr 1
    apply List.map_congr_left
    rintro ⟨a, b⟩ h
    obtain ⟨_, _, _, h2⟩ := (mem_rowPairs fixed a b).mp h
    have hne : a ≠ b := by rintro rfl; exact lt_irrefl _ h2
    simp [pairMove, hne, hne.symm]
  · intro a b ha hb h1 hne
    simp only [mem_rowPairs]
    rcases lt_trichotomy a.2 b.2 with h | h | h
    · exact Or.inl ⟨⟨ha, hb, h1, h⟩, fun h' => absurd h' (by intro h'; exact lt_asymm h h'.2.2.2)⟩
    · exact absurd (Prod.ext h1 h) hne
    · exact Or.inr ⟨⟨hb, ha, h1.symm, h⟩, fun h' => lt_asymm h h'.2.2.2⟩

/-- **C03, columns.** -/
theorem C03_cols_complete {m n : Nat} (constrained : List Ax) (hc : ColsOnly constrained)
    (fixed : List (Cell m n)) (pick : Cell m n → Nat) :
    ∃ pairs : List (Cell m n × Cell m n),
      generateBasis constrained fixed pick = some (pairs.map fun p => [(p.1, 1), (p.2, -1)]) ∧ pairs.Nodup ∧
      (∀ a b, (a, b) ∈ pairs ↔ a ∉ fixed ∧ b ∉ fixed ∧ a.2 = b.2 ∧ a.1 < b.1) ∧
      (∀ a b, a ∉ fixed → b ∉ fixed → a.2 = b.2 → a ≠ b →
        ((a, b) ∈ pairs ∧ (b, a) ∉ pairs) ∨ ((b, a) ∈ pairs ∧ (a, b) ∉ pairs)) := by
  refine ⟨pairsOf colCand (freeCells fixed), ?_, pairsOf_nodup (freeCells_sorted fixed), mem_colPairs fixed, ?_⟩
  · rw [cols_basis_eq hc]
    congr 1
    apply List.map_congr_left
    rintro ⟨a, b⟩ h
    obtain ⟨_, _, _, h2⟩ := (mem_colPairs fixed a b).mp h
    have hne : a ≠ b := by rintro rfl; exact lt_irrefl _ h2
    simp [pairMove, hne, hne.symm]
  · intro a b ha hb h1 hne
    simp only [mem_colPairs]
    rcases lt_trichotomy a.1 b.1 with h | h | h
    · exact Or.inl ⟨⟨ha, hb, h1, h⟩, fun h' => lt_asymm h h'.2.2.2⟩
    · exact absurd (Prod.ext h h1) hne
    · exact Or.inr ⟨⟨hb, ha, h1.symm, h⟩, fun h' => lt_asymm h h'.2.2.2⟩

theorem card_lt_pairs (k : Nat) :
    (Finset.univ.filter fun p : Fin k × Fin k => p.1 < p.2).card = k * (k - 1) / 2 := by
  rw [Finset.card_filter, Fintype.sum_prod_type, Finset.sum_comm]
  have h : ∀ y : Fin k, (∑ x : Fin k, if x < y then 1 else 0) = y.val := by
    intro y
    rw [← Finset.card_filter]
    have : (Finset.univ.filter fun x : Fin k => x < y) = Finset.Iio y := by ext; simp
    rw [this, Fin.card_Iio]
  simp only [h]
  rw [Fin.sum_univ_eq_sum_range (fun i => i) k, Finset.sum_range_id]

/-- **C03, length.**  Without fixed cells the length of the row-margin basis is the documented
`cols*(cols-1)*rows/2` and that of the column-margin basis `rows*(rows-1)*cols/2`. -/
theorem C03_length {m n : Nat} (constrained : List Ax) (pick : Cell m n → Nat) :
    (RowsOnly constrained → ∃ basis, generateBasis (m := m) (n := n) constrained [] pick = some basis ∧
      basis.length = trueLengthRows m n) ∧
    (ColsOnly constrained → ∃ basis, generateBasis (m := m) (n := n) constrained [] pick = some basis ∧
      basis.length = trueLengthCols m n) := by
  have evenk : ∀ k : Nat, 2 ∣ k * (k - 1) := fun k => (Nat.even_mul_pred_self k).two_dvd
  constructor
  · intro hc
    refine ⟨_, rows_basis_eq hc [] pick, ?_⟩
    rw [List.length_map]
    have hnd := pairsOf_nodup (p := rowCand) (freeCells_sorted ([] : List (Cell m n)))
    rw [← List.toFinset_card_of_nodup hnd]
    have : (pairsOf rowCand (freeCells ([] : List (Cell m n)))).toFinset.card =
        ((Finset.univ : Finset (Fin m)) ×ˢ (Finset.univ.filter fun p : Fin n × Fin n => p.1 < p.2)).card := by
      refine Finset.card_bij' (fun p _ => (p.1.1, (p.1.2, p.2.2))) (fun q _ => ((q.1, q.2.1), (q.1, q.2.2))) ?_ ?_ ?_ ?_
      · rintro ⟨a, b⟩ h
        rw [List.mem_toFinset, mem_rowPairs] at h
        simp [h.2.2.2]
      · rintro ⟨i, j, k⟩ h
        rw [List.mem_toFinset, mem_rowPairs]
        simpa using h
      · rintro ⟨⟨a1, a2⟩, ⟨b1, b2⟩⟩ h
        rw [List.mem_toFinset, mem_rowPairs] at h
        have := h.2.2.1
        simp only at this
        simp [this]
      · rintro ⟨i, j, k⟩ h; rfl
    rw [this, Finset.card_product, card_lt_pairs, Finset.card_univ, Fintype.card_fin, trueLengthRows]
    obtain ⟨q, hq⟩ := evenk n
    rw [hq, Nat.mul_div_cancel_left _ (by omega), Nat.mul_assoc, Nat.mul_div_cancel_left _ (by omega),
      Nat.mul_comm]
  · intro hc
    refine ⟨_, cols_basis_eq hc [] pick, ?_⟩
    rw [List.length_map]
    have hnd := pairsOf_nodup (p := colCand) (freeCells_sorted ([] : List (Cell m n)))
    rw [← List.toFinset_card_of_nodup hnd]
    have : (pairsOf colCand (freeCells ([] : List (Cell m n)))).toFinset.card =
        ((Finset.univ : Finset (Fin n)) ×ˢ (Finset.univ.filter fun p : Fin m × Fin m => p.1 < p.2)).card := by
      refine Finset.card_bij' (fun p _ => (p.1.2, (p.1.1, p.2.1))) (fun q _ => ((q.2.1, q.1), (q.2.2, q.1))) ?_ ?_ ?_ ?_
      · rintro ⟨a, b⟩ h
        rw [List.mem_toFinset, mem_colPairs] at h
        simp [h.2.2.2]
      · rintro ⟨i, j, k⟩ h
        rw [List.mem_toFinset, mem_colPairs]
        simpa using h
      · rintro ⟨⟨a1, a2⟩, ⟨b1, b2⟩⟩ h
        rw [List.mem_toFinset, mem_colPairs] at h
        have := h.2.2.1
        simp only at this
        simp [this]
      · rintro ⟨i, j, k⟩ h; rfl
    rw [this, Finset.card_product, card_lt_pairs, Finset.card_univ, Fintype.card_fin, trueLengthCols]
    obtain ⟨q, hq⟩ := evenk m
    rw [hq, Nat.mul_div_cancel_left _ (by omega), Nat.mul_assoc, Nat.mul_div_cancel_left _ (by omega),
      Nat.mul_comm]

example : trueLengthRows 2 3 = 6 ∧
    (generateBasis (m := 2) (n := 3) [[0, 1], [1]] [] (fun _ => 0)).map List.length = some 6 := by
  decide +kernel

end GeNSIT
