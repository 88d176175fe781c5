import Mathlib.Data.List.Perm.Basic
import Mathlib.Data.List.Nodup
import Mathlib.Data.List.Range
import Mathlib.Data.List.Count
import Mathlib.Tactic.Linarith

/-!
# One epoch of training of the graph attention network (`gensit/learning_models/GraphAttentionNetwork.py:271-328`, `346-381`) (C138)
-/

namespace GeNSIT

/-- Errors of an epoch. -/
inductive EpochError
  | noRegions
  | zeroStep
deriving DecidableEq, Repr

/-- The slices of `generate_mini_batches` (`GraphAttentionNetwork.py:286-287`): `samples[i : i + b]` for `i = 0, b, 2 b, ...` below the length. -/
def slices {α : Type} (b : ℕ) (l : List α) : List (List α) :=
  (List.range ((l.length + b - 1) / b)).map fun k => (l.drop (k * b)).take b

/-- `generate_mini_batches` (`GraphAttentionNetwork.py:271-287`) with the shuffled order `order`: `negative_sampling` fails unless the rate is zero,
because the class has no attribute `num_regions` (`GraphAttentionNetwork.py:294`, `303`); a batch size of zero is a `ValueError` of `range`, a
negative one makes the range empty. -/
def miniBatches {α : Type} (batchSize : ℤ) (rate : ℕ) (order : List ℕ) (rows : List α) : Except EpochError (List (List α)) :=
  if rate ≠ 0 then .error .noRegions
  else
    let samples := order.filterMap fun i => rows[i]?
    match batchSize with
    | .ofNat 0 => .error .zeroStep
    | .ofNat b => .ok (slices b samples)
    | .negSucc _ => .ok []

/-- `train_single` (`GraphAttentionNetwork.py:346-381`): a step of the optimiser for each batch, from the parameters. -/
def epoch {α P : Type} (step : P → List α → P) (batchSize : ℤ) (rate : ℕ) (order : List ℕ) (rows : List α) (p : P) : Except EpochError P :=
  (miniBatches batchSize rate order rows).map fun bs => bs.foldl step p

/-! ## C138 -/

theorem slices_flatten {α : Type} (b : ℕ) (hb : 0 < b) (l : List α) : (slices b l).flatten = l := by
  have h : ∀ m, ((List.range m).map fun k => (l.drop (k * b)).take b).flatten = l.take (m * b) := by
    intro m
    induction m with
    | zero => simp
    | succ m ih =>
      rw [List.range_succ, List.map_append, List.flatten_append, ih]
      simp only [List.map_cons, List.map_nil, List.flatten_cons, List.flatten_nil, List.append_nil]
      rw [Nat.succ_mul, List.take_add]
  unfold slices
  rw [h]
  apply List.take_of_length_le
  have h1 := Nat.div_add_mod (l.length + b - 1) b
  have h2 := Nat.mod_lt (l.length + b - 1) hb
  rw [mul_comm]
  omega

theorem filterMap_order {α : Type} (rows : List α) (order : List ℕ) (ho : order.Perm (List.range rows.length)) :
    (order.filterMap fun i => rows[i]?).Perm rows := by
  refine (ho.filterMap _).trans ?_
  have : (List.range rows.length).filterMap (fun i => rows[i]?) = rows := by
    apply List.ext_getElem?
    intro i
    have h : (List.range rows.length).filterMap (fun i => rows[i]?) = (List.finRange rows.length).map fun i => rows[i] := by
      rw [← List.map_coe_finRange_eq_range, List.filterMap_map]
      rw [← List.filterMap_eq_map]
      congr 1
      funext i
      simp
    rw [h]
    simp
  rw [this]

/-- C138: with a positive batch size an epoch uses every training row exactly once: the batches together are the training set in some order, no batch
is empty or larger than the batch size, and only the last is smaller. -/
theorem C138_epoch {α : Type} (b : ℕ) (hb : 0 < b) (order : List ℕ) (rows : List α) (ho : order.Perm (List.range rows.length)) :
    ∃ bs, miniBatches (b : ℤ) 0 order rows = .ok bs ∧ bs.flatten.Perm rows ∧ bs.length = (rows.length + b - 1) / b ∧
      (∀ x ∈ bs, 0 < x.length ∧ x.length ≤ b) ∧ ∀ (k : ℕ) (h : k + 1 < bs.length), (bs[k]).length = b := by
  obtain ⟨b, rfl⟩ : ∃ b', b = b' + 1 := ⟨b - 1, by omega⟩
  set samples := order.filterMap fun i => rows[i]? with hs
  have hlen : samples.length = rows.length := (filterMap_order rows order ho).length_eq
  refine ⟨slices (b + 1) samples, rfl, ?_, ?_, ?_, ?_⟩
  · rw [slices_flatten _ hb]
    exact filterMap_order rows order ho
  · simp [slices, hlen]
  · intro x hx
    unfold slices at hx
    simp only [List.mem_map, List.mem_range] at hx
    obtain ⟨k, hk, rfl⟩ := hx
    have h1 := Nat.div_mul_le_self (samples.length + (b + 1) - 1) (b + 1)
    have h2 : (k + 1) * (b + 1) ≤ samples.length + b := by
      calc (k + 1) * (b + 1) ≤ (samples.length + (b + 1) - 1) / (b + 1) * (b + 1) := Nat.mul_le_mul_right _ hk
        _ ≤ _ := h1
    rw [Nat.succ_mul] at h2
    simp only [List.length_take, List.length_drop]
    omega
  · intro k hk
    simp only [slices, List.length_map, List.length_range] at hk
    have h1 := Nat.div_mul_le_self (samples.length + (b + 1) - 1) (b + 1)
    have h2 : (k + 1 + 1) * (b + 1) ≤ samples.length + b := by
      calc (k + 1 + 1) * (b + 1) ≤ (samples.length + (b + 1) - 1) / (b + 1) * (b + 1) := Nat.mul_le_mul_right _ hk
        _ ≤ _ := h1
    rw [Nat.succ_mul, Nat.succ_mul] at h2
    simp only [slices, List.getElem_map, List.getElem_range, List.length_take, List.length_drop]
    omega

example : miniBatches 2 0 [2, 0, 1] ["a", "b", "c"] = .ok [["c", "a"], ["b"]] := rfl

/-- C138: a batch size at least as large as the training set gives one batch, a step on the whole set. -/
theorem C138_full_batch {α : Type} (b : ℕ) (order : List ℕ) (rows : List α) (ho : order.Perm (List.range rows.length)) (hr : rows ≠ [])
    (hb : rows.length ≤ b) : ∃ x, miniBatches (b : ℤ) 0 order rows = .ok [x] ∧ x.Perm rows := by
  have hpos : 0 < rows.length := List.length_pos_of_ne_nil hr
  obtain ⟨b, rfl⟩ : ∃ b', b = b' + 1 := ⟨b - 1, by omega⟩
  set samples := order.filterMap fun i => rows[i]? with hs
  have hlen : samples.length = rows.length := (filterMap_order rows order ho).length_eq
  refine ⟨samples, ?_, filterMap_order rows order ho⟩
  have h : (samples.length + (b + 1) - 1) / (b + 1) = 1 := by
    rw [Nat.div_eq_iff (by omega)]
    omega
  change Except.ok (slices (b + 1) samples) = _
  unfold slices
  rw [h]
  simp only [List.range_one, List.map_cons, List.map_nil, Nat.zero_mul, List.drop_zero]
  rw [List.take_of_length_le (by omega)]

example : miniBatches 5 0 [1, 0] ["a", "b"] = .ok [["b", "a"]] := rfl

/-- C138: any rate of negative sampling other than zero makes the epoch fail. -/
theorem C138_negatives {α P : Type} (step : P → List α → P) (batchSize : ℤ) (rate : ℕ) (order : List ℕ) (rows : List α) (p : P) (h : rate ≠ 0) :
    epoch step batchSize rate order rows p = .error .noRegions := by
  simp [epoch, miniBatches, h, Except.map]

/-- C138: an epoch runs exactly if the rate is zero and the batch size is not. -/
theorem C138_runs_iff {α P : Type} (step : P → List α → P) (batchSize : ℤ) (rate : ℕ) (order : List ℕ) (rows : List α) (p : P) :
    (∃ q, epoch step batchSize rate order rows p = .ok q) ↔ rate = 0 ∧ batchSize ≠ 0 := by
  unfold epoch miniBatches
  by_cases hr : rate = 0
  · subst hr
    rcases batchSize with (_ | b) | b
    · simp [Except.map]
    · simp only [Except.map]
      constructor
      · intro _
        exact ⟨trivial, by intro hc; cases hc⟩
      · intro _
        exact ⟨_, rfl⟩
    · simp [Except.map]
  · simp [hr, Except.map]

/-- C138: with a negative batch size nothing is learnt and nothing is reported. -/
theorem C138_negative_size {α P : Type} (step : P → List α → P) (batchSize : ℤ) (order : List ℕ) (rows : List α) (p : P) (h : batchSize < 0) :
    epoch step batchSize 0 order rows p = .ok p := by
  rcases batchSize with n | n
  · exact absurd h (by simp)
  · rfl

/-- C138: so not every accepted batch size trains on every row. -/
theorem C138_negative_false : ¬ ∀ (batchSize : ℤ) (order : List ℕ) (rows : List ℕ) (bs : List (List ℕ)), order.Perm (List.range rows.length) →
    miniBatches batchSize 0 order rows = .ok bs → bs.flatten.Perm rows := by
  intro h
  exact absurd (h (-1) [0] [7] [] (by decide) rfl) (by decide)

/-- C138: negative samples are not available. -/
theorem C138_negatives_false : ¬ ∀ (rate : ℕ) (order rows : List ℕ), order.Perm (List.range rows.length) → ∃ bs, miniBatches 1 rate order rows = .ok bs := by
  intro h
  obtain ⟨bs, hbs⟩ := h 1 [0] [7] (by decide)
  simp [miniBatches] at hbs

end GeNSIT
