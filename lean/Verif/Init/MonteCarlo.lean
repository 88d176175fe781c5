import Verif.Init.Model
import Verif.Table.Lemmas
import Mathlib.Tactic.Linarith
import Mathlib.Algebra.BigOperators.Intervals
import Mathlib.Algebra.Order.BigOperators.Group.Finset
import Mathlib.Data.List.Range

/-!
# Property theorem C14 (Monte Carlo initialisation)
-/

namespace GeNSIT

open Spec

theorem prefixSum_zero {k : Nat} (f : Fin k → Int) : prefixSum f 0 = 0 := by simp [prefixSum]

theorem prefixSum_succ {k : Nat} (f : Fin k → Int) (i : Fin k) :
    prefixSum f (i.val + 1) = prefixSum f i.val + f i := by
  unfold prefixSum
  have : f i = ∑ x : Fin k, if x = i then f i else 0 := by simp
  rw [this, ← Finset.sum_add_distrib]
  refine Finset.sum_congr rfl fun x _ => ?_
  by_cases h : x = i
  · subst h; simp
  · have hv : x.val ≠ i.val := fun e => h (Fin.ext e)
    by_cases h2 : x.val < i.val
    · simp [h, h2, Nat.lt_succ_of_lt h2]
    · have : ¬ x.val < i.val + 1 := by omega
      simp [h, h2, this]

theorem prefixSum_full {k : Nat} (f : Fin k → Int) : prefixSum f k = ∑ i, f i := by
  unfold prefixSum
  exact Finset.sum_congr rfl fun x _ => by simp [x.isLt]

theorem prefixSum_mono {k : Nat} {f : Fin k → Int} (hf : ∀ i, 0 ≤ f i) {a b : Nat} (h : a ≤ b) :
    prefixSum f a ≤ prefixSum f b := by
  unfold prefixSum
  refine Finset.sum_le_sum fun x _ => ?_
  by_cases h1 : x.val < a
  · simp [h1, lt_of_lt_of_le h1 h]
  · by_cases h2 : x.val < b <;> simp [h1, h2, hf x]

theorem prefixSum_nonneg {k : Nat} {f : Fin k → Int} (hf : ∀ i, 0 ≤ f i) (a : Nat) : 0 ≤ prefixSum f a := by
  rw [← prefixSum_zero f]; exact prefixSum_mono hf (Nat.zero_le _)

/-- Telescoping over `Fin k`. -/
theorem sum_fin_telescope {k : Nat} (g : Nat → Int) : ∑ i : Fin k, (g (i.val + 1) - g i.val) = g k - g 0 := by
  rw [Fin.sum_univ_eq_sum_range (fun i => g (i + 1) - g i) k, Finset.sum_range_sub]

theorem countP_interval (l : List Int) {a b : Int} (h : a ≤ b) :
    ((l.countP fun x => decide (a + 1 ≤ x) && decide (x ≤ b) : Nat) : Int) =
      (l.countP fun x => decide (x ≤ b) : Nat) - (l.countP fun x => decide (x ≤ a) : Nat) := by
  induction l with
  | nil => simp
  | cons x l ih =>
    simp only [List.countP_cons, Bool.and_eq_true, decide_eq_true_eq] at ih ⊢
    split_ifs <;> push_cast <;> omega

theorem countP_slice {α : Type} (l : List α) (p : α → Bool) {a b : Nat} (h : a ≤ b) :
    (((pySlice l a b).countP p : Nat) : Int) = ((l.take b).countP p : Nat) - ((l.take a).countP p : Nat) := by
  unfold pySlice
  have e : (l.take b).countP p = ((l.take b).take a).countP p + ((l.take b).drop a).countP p := by
    rw [← List.countP_append, List.take_append_drop]
  have e2 : (l.take b).take a = l.take a := by rw [List.take_take, Nat.min_eq_left h]
  rw [e2] at e
  omega

theorem countP_range (N : Nat) {K : Int} (h0 : 0 ≤ K) (hN : K ≤ N) :
    (((List.range N).map (fun (k : Nat) => (k : Int) + 1)).countP fun x => decide (x ≤ K) : Nat) = K.toNat := by
  rw [List.countP_map]
  have : ∀ M : Nat, (List.range M).countP ((fun x : Int => decide (x ≤ K)) ∘ fun (k : Nat) => (k : Int) + 1) =
      min M K.toNat := by
    intro M
    induction M with
    | zero => simp
    | succ M ih =>
      rw [List.range_succ, List.countP_append, ih]
      simp only [List.countP_cons, List.countP_nil, Function.comp, decide_eq_true_eq]
      split_ifs <;> omega
  rw [this]; omega

/-- **C14.**  With no fixed cells and consistent non-negative row and column totals, for every permutation of
`1, …, N` the constructed table is non-negative and has exactly the requested row and column sums. -/
theorem C14_monte_carlo {m n : Nat} (truth : Table m n) (row : Fin m → Int) (col : Fin n → Int) (N : Nat)
    (hr : ∀ i, 0 ≤ row i) (hc : ∀ j, 0 ≤ col j) (hrN : ∑ i, row i = N) (hcN : ∑ j, col j = N)
    (perm : List Int) (hp : perm.Perm ((List.range N).map fun (k : Nat) => (k : Int) + 1)) :
    Nonneg (monteCarlo truth [] row col perm) ∧ (∀ i, rowSum (monteCarlo truth [] row col perm) i = row i) ∧
    (∀ j, colSum (monteCarlo truth [] row col perm) j = col j) ∧
    total (monteCarlo truth [] row col perm) = N := by
  have hlen : perm.length = N := by rw [hp.length_eq]; simp
  have hmem : ∀ x ∈ perm, 1 ≤ x ∧ x ≤ N := by
    intro x hx
    have := hp.mem_iff.mp hx
    simp only [List.mem_map, List.mem_range] at this
    obtain ⟨k, hk, rfl⟩ := this
    omega
  have hrowN : ∀ a, a ≤ m → (prefixSum row a).toNat ≤ N := by
    intro a ha
    have := prefixSum_mono hr ha
    rw [prefixSum_full, hrN] at this
    omega
  have hrows : ∀ i, rowSum (monteCarlo truth [] row col perm) i = row i := by
    intro i
    simp only [rowSum, monteCarlo, List.not_mem_nil, if_false]
    have hmono : (prefixSum row i.val).toNat ≤ (prefixSum row (i.val + 1)).toNat :=
      Int.toNat_le_toNat (prefixSum_mono hr (Nat.le_succ _))
    generalize hsub : pySlice perm (prefixSum row i.val).toNat (prefixSum row (i.val + 1)).toNat = sub
    have hin : ∀ x ∈ sub, 1 ≤ x ∧ x ≤ N := by
      intro x hx
      rw [← hsub] at hx
      exact hmem x (List.mem_of_mem_take (List.mem_of_mem_drop hx))
    have hl : (sub.length : Int) = row i := by
      rw [← hsub]
      simp only [pySlice, List.length_drop, List.length_take, hlen]
      have h1 := hrowN (i.val + 1) i.isLt
      have h2 := prefixSum_succ row i
      have h3 := prefixSum_nonneg hr i.val
      have h4 := hr i
      omega
    have e1 : ∀ j : Fin n, ((sub.countP fun x => decide (prefixSum col j.val + 1 ≤ x) &&
        decide (x ≤ prefixSum col (j.val + 1)) : Nat) : Int) =
        (fun r : Nat => ((sub.countP fun x => decide (x ≤ prefixSum col r) : Nat) : Int)) (j.val + 1) -
        (fun r : Nat => ((sub.countP fun x => decide (x ≤ prefixSum col r) : Nat) : Int)) j.val :=
      fun j => countP_interval sub (prefixSum_mono hc (Nat.le_succ _))
    rw [Finset.sum_congr rfl fun j _ => e1 j,
      sum_fin_telescope (fun r : Nat => ((sub.countP fun x => decide (x ≤ prefixSum col r) : Nat) : Int))]
    rw [prefixSum_full, prefixSum_zero, hcN]
    have f1 : sub.countP (fun x => decide (x ≤ (N : Int))) = sub.length :=
      List.countP_eq_length.mpr fun x hx => by simpa using (hin x hx).2
    have f0 : sub.countP (fun x => decide (x ≤ (0 : Int))) = 0 :=
      List.countP_eq_zero.mpr fun x hx => by have := (hin x hx).1; simp; omega
    rw [f1, f0, ← hl]; simp
  have hcols : ∀ j, colSum (monteCarlo truth [] row col perm) j = col j := by
    intro j
    simp only [colSum, monteCarlo, List.not_mem_nil, if_false]
    generalize hq : (fun x : Int => decide (prefixSum col j.val + 1 ≤ x) &&
        decide (x ≤ prefixSum col (j.val + 1))) = q
    have e1 : ∀ i : Fin m, (((pySlice perm (prefixSum row i.val).toNat (prefixSum row (i.val + 1)).toNat).countP
        q : Nat) : Int) =
        (fun r : Nat => (((perm.take (prefixSum row r).toNat).countP q : Nat) : Int)) (i.val + 1) -
        (fun r : Nat => (((perm.take (prefixSum row r).toNat).countP q : Nat) : Int)) i.val :=
      fun i => countP_slice perm q (Int.toNat_le_toNat (prefixSum_mono hr (Nat.le_succ _)))
    rw [Finset.sum_congr rfl fun i _ => e1 i,
      sum_fin_telescope (fun r : Nat => (((perm.take (prefixSum row r).toNat).countP q : Nat) : Int))]
    rw [prefixSum_full, prefixSum_zero, hrN]
    have f1 : perm.take ((N : Int)).toNat = perm := List.take_of_length_le (by omega)
    have hle : prefixSum col (j.val + 1) ≤ N := by
      rw [← hcN, ← prefixSum_full col]; exact prefixSum_mono hc j.isLt
    have hmono : prefixSum col j.val ≤ prefixSum col (j.val + 1) := prefixSum_mono hc (Nat.le_succ _)
    have h0 := prefixSum_nonneg hc j.val
    have h2 := prefixSum_succ col j
    rw [f1, hp.countP_eq, ← hq, countP_interval _ hmono, countP_range N (by omega) hle,
      countP_range N h0 (by omega)]
    simp only [Int.toNat_zero, List.take_zero, List.countP_nil]
    omega
  refine ⟨fun i j => ?_, hrows, hcols, ?_⟩
  · simp only [monteCarlo, List.not_mem_nil, if_false]; omega
  · rw [← hrN]; exact Finset.sum_congr rfl fun i _ => hrows i

example : (let t := monteCarlo (fun _ _ => 0 : Table 2 2) [] ![3, 2] ![1, 4] [4, 1, 5, 3, 2]
    (t 0 0, t 0 1, t 1 0, t 1 1)) = (1, 2, 0, 2) := by decide +kernel
example : [4, 1, 5, 3, 2].Perm ((List.range 5).map fun (k : Nat) => (k : Int) + 1) := by decide +kernel

/-- **C14 (with fixed cells, exact behaviour).**  Fixed cells get their known value, every other cell the value it would
have without fixed cells; so the free part of a row or column never exceeds its residual total. -/
theorem C14_fixed_cells {m n : Nat} (truth : Table m n) (fixed : List (Cell m n)) (row : Fin m → Int)
    (col : Fin n → Int) (N : Nat) (hr : ∀ i, 0 ≤ row i) (hc : ∀ j, 0 ≤ col j) (hrN : ∑ i, row i = N)
    (hcN : ∑ j, col j = N) (perm : List Int)
    (hp : perm.Perm ((List.range N).map fun (k : Nat) => (k : Int) + 1)) :
    AgreeAt fixed (monteCarlo truth fixed row col perm) truth ∧
    (Nonneg truth → Nonneg (monteCarlo truth fixed row col perm)) ∧
    (∀ i, ∑ j, (if (i, j) ∈ fixed then 0 else monteCarlo truth fixed row col perm i j) ≤ row i) ∧
    (∀ j, ∑ i, (if (i, j) ∈ fixed then 0 else monteCarlo truth fixed row col perm i j) ≤ col j) := by
  obtain ⟨h1, h2, h3, _⟩ := C14_monte_carlo truth row col N hr hc hrN hcN perm hp
  have hfree : ∀ i j, (i, j) ∉ fixed →
      monteCarlo truth fixed row col perm i j = monteCarlo truth [] row col perm i j := by
    intro i j hij
    simp [monteCarlo, hij]
  have hle : ∀ i j, (if (i, j) ∈ fixed then 0 else monteCarlo truth fixed row col perm i j) ≤
      monteCarlo truth [] row col perm i j := by
    intro i j
    split
    · exact h1 i j
    · next hij => exact (hfree i j hij).le
  refine ⟨fun i j hij => by simp [monteCarlo, hij], fun ht i j => ?_, fun i => ?_, fun j => ?_⟩
  · by_cases hij : (i, j) ∈ fixed
    · simpa [monteCarlo, hij] using ht i j
    · rw [hfree i j hij]; exact h1 i j
  · rw [← h2 i]
    exact Finset.sum_le_sum fun j _ => hle i j
  · rw [← h3 j]
    exact Finset.sum_le_sum fun i _ => hle i j

/-- **C14 does not extend to fixed cells**: units of the permutation that fall in a fixed cell are lost, so the row totals
are missed although residual margins are consistent. -/
theorem C14_fixed_cells_false : ∃ (truth : Table 2 2) (fixed : List (Cell 2 2)) (row col : Fin 2 → Int)
    (perm : List Int), (∀ i, 0 ≤ row i) ∧ (∀ j, 0 ≤ col j) ∧ ∑ i, row i = 2 ∧ ∑ j, col j = 2 ∧
    perm.Perm ((List.range 2).map fun (k : Nat) => (k : Int) + 1) ∧
    rowSum (monteCarlo truth fixed row col perm) 0 ≠ row 0 + truth 0 0 ∧ fixed = [(0, 0)] := by
  refine ⟨fun _ _ => 3, [(0, 0)], ![1, 1], ![1, 1], [1, 2], by decide, by decide, by decide, by decide,
    by decide +kernel, ?_, rfl⟩
  unfold rowSum
  decide +kernel

end GeNSIT
