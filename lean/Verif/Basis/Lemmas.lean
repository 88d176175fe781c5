import Verif.Basis.Model
import Verif.Table.Lemmas
import Mathlib.Data.List.FinRange
import Mathlib.Algebra.BigOperators.Intervals
import Mathlib.Order.Interval.Finset.Fin
import Mathlib.Tactic.Ring

namespace GeNSIT

open Spec

/-- Lexicographic order on cells. -/
def CellLt {m n : Nat} (a b : Cell m n) : Prop := a.1 < b.1 ∨ (a.1 = b.1 ∧ a.2 < b.2)

theorem CellLt.ne {m n : Nat} {a b : Cell m n} (h : CellLt a b) : a ≠ b := by
  rintro rfl; rcases h with h | h
  · exact lt_irrefl _ h
  · exact lt_irrefl _ h.2

theorem CellLt.asymm {m n : Nat} {a b : Cell m n} (h : CellLt a b) : ¬ CellLt b a := by
  unfold CellLt at *; omega

theorem allCells_sorted (m n : Nat) : (allCells m n).Pairwise CellLt := by
  unfold allCells
  rw [List.pairwise_flatMap]
  refine ⟨?_, ?_⟩
  · intro i _
    rw [List.pairwise_map]
    exact (List.pairwise_lt_finRange n).imp (fun h => Or.inr ⟨rfl, h⟩)
  · refine (List.pairwise_lt_finRange m).imp ?_
    intro a b hab x hx y hy
    simp only [List.mem_map] at hx hy
    obtain ⟨_, _, rfl⟩ := hx
    obtain ⟨_, _, rfl⟩ := hy
    exact Or.inl hab

theorem freeCells_sorted {m n : Nat} (fixed : List (Cell m n)) : (freeCells fixed).Pairwise CellLt :=
  (allCells_sorted m n).sublist List.filter_sublist

theorem mem_freeCells {m n : Nat} (fixed : List (Cell m n)) (c : Cell m n) :
    c ∈ freeCells fixed ↔ c ∉ fixed := by
  simp [freeCells, removeCells, mem_allCells]

theorem sameSet_iff (a b : List Ax) : sameSet a b = true ↔ ∀ x, x ∈ a ↔ x ∈ b := by
  simp only [sameSet, Bool.and_eq_true, List.all_eq_true, List.contains_iff_mem]
  exact ⟨fun h x => ⟨h.1 x, h.2 x⟩, fun h => ⟨fun x => (h x).mp, fun x => (h x).mpr⟩⟩

/-! ### pairs over suffixes -/

/-- Pairs `(c, c')` with `c` before `c'` in the list and `p c c'`. -/
def pairsOf {α : Type} (p : α → α → Bool) : List α → List (α × α)
  | [] => []
  | c :: rest => (rest.filter (p c)).map (fun d => (c, d)) ++ pairsOf p rest

theorem mem_pairsOf {α : Type} {p : α → α → Bool} {l : List α} {x : α × α} (h : x ∈ pairsOf p l) :
    x.1 ∈ l ∧ x.2 ∈ l ∧ p x.1 x.2 = true := by
  induction l with
  | nil => simp [pairsOf] at h
  | cons c rest ih =>
    simp only [pairsOf, List.mem_append, List.mem_map, List.mem_filter] at h
    rcases h with ⟨d, ⟨hd, hp⟩, rfl⟩ | h
    · exact ⟨by simp, by simp [hd], hp⟩
    · obtain ⟨h1, h2, h3⟩ := ih h
      exact ⟨by simp [h1], by simp [h2], h3⟩

theorem mem_pairsOf_sorted {m n : Nat} {p : Cell m n → Cell m n → Bool} {l : List (Cell m n)}
    (hs : l.Pairwise CellLt) (a b : Cell m n) :
    (a, b) ∈ pairsOf p l ↔ a ∈ l ∧ b ∈ l ∧ p a b = true ∧ CellLt a b := by
  induction l with
  | nil => simp [pairsOf]
  | cons c rest ih =>
    obtain ⟨hc, hr⟩ := List.pairwise_cons.mp hs
    simp only [pairsOf, List.mem_append, List.mem_map, List.mem_filter, Prod.mk.injEq, ih hr, List.mem_cons]
    constructor
    · rintro (⟨d, ⟨hd, hp⟩, rfl, rfl⟩ | ⟨h1, h2, h3, h4⟩)
      · exact ⟨Or.inl rfl, Or.inr hd, hp, hc _ hd⟩
      · exact ⟨Or.inr h1, Or.inr h2, h3, h4⟩
    · rintro ⟨h1, h2, h3, h4⟩
      rcases h1 with rfl | h1
      · rcases h2 with rfl | h2
        · exact absurd rfl h4.ne
        · exact Or.inl ⟨b, ⟨h2, h3⟩, rfl, rfl⟩
      · rcases h2 with rfl | h2
        · exact absurd h4 (hc _ h1).asymm
        · exact Or.inr ⟨h1, h2, h3, h4⟩

theorem pairsOf_nodup {m n : Nat} {p : Cell m n → Cell m n → Bool} {l : List (Cell m n)}
    (hs : l.Pairwise CellLt) : (pairsOf p l).Nodup := by
  induction l with
  | nil => simp [pairsOf]
  | cons c rest ih =>
    obtain ⟨hc, hr⟩ := List.pairwise_cons.mp hs
    simp only [pairsOf]
    rw [List.nodup_append]
    refine ⟨?_, ih hr, ?_⟩
    · apply List.Nodup.map
      · intro x y h; simpa using h
      · exact (hr.imp CellLt.ne).filter _
    · intro x hx y hy hxy
      subst hxy
      simp only [List.mem_map, List.mem_filter] at hx
      obtain ⟨d, _, rfl⟩ := hx
      have := (mem_pairsOf hy).1
      exact (hc _ this).ne rfl

/-- Candidate predicate of `active_candidates` when the row sums are constrained. -/
def rowCand {m n : Nat} (a b : Cell m n) : Bool := decide (b.2 > a.2) && decide (b.1 = a.1)
/-- Candidate predicate when the column sums are constrained. -/
def colCand {m n : Nat} (a b : Cell m n) : Bool := decide (b.1 > a.1) && decide (b.2 = a.2)
/-- Candidate predicate when both are constrained. -/
def bothCand {m n : Nat} (a b : Cell m n) : Bool := decide (b.1 ≠ a.1) && decide (b.2 > a.2)

theorem activeCandidates_rows {m n : Nat} {constrained : List Ax}
    (hc : ∀ a, a ∈ constrained ↔ a = [1] ∨ a = [0, 1]) (c : Cell m n) (later : List (Cell m n)) :
    activeCandidates constrained c later = some (later.filter (rowCand c)) := by
  have h : sameSet constrained [[1], [0, 1]] = true := (sameSet_iff _ _).mpr (by simpa using hc)
  simp only [activeCandidates, h, if_true]
  rfl

theorem activeCandidates_cols {m n : Nat} {constrained : List Ax}
    (hc : ∀ a, a ∈ constrained ↔ a = [0] ∨ a = [0, 1]) (c : Cell m n) (later : List (Cell m n)) :
    activeCandidates constrained c later = some (later.filter (colCand c)) := by
  have h0 : ¬ sameSet constrained [[1], [0, 1]] = true := by
    rw [sameSet_iff]; intro h
    have := (h [0]).mp ((hc [0]).mpr (Or.inl rfl))
    simp at this
  have h : sameSet constrained [[0], [0, 1]] = true := (sameSet_iff _ _).mpr (by simpa using hc)
  simp only [activeCandidates, h0, h, if_true, if_false, Bool.false_eq_true]
  rfl

theorem activeCandidates_both {m n : Nat} {constrained : List Ax}
    (hc : ∀ a, a ∈ constrained ↔ a = [0] ∨ a = [1] ∨ a = [0, 1]) (c : Cell m n) (later : List (Cell m n)) :
    activeCandidates constrained c later = some (later.filter (bothCand c)) := by
  have h0 : ¬ sameSet constrained [[1], [0, 1]] = true := by
    rw [sameSet_iff]; intro h
    have := (h [0]).mp ((hc [0]).mpr (Or.inl rfl))
    simp at this
  have h1 : ¬ sameSet constrained [[0], [0, 1]] = true := by
    rw [sameSet_iff]; intro h
    have := (h [1]).mp ((hc [1]).mpr (Or.inr (Or.inl rfl)))
    simp at this
  have h : sameSet constrained [[0], [1], [0, 1]] = true := (sameSet_iff _ _).mpr (by simpa using hc)
  simp only [activeCandidates, h0, h1, h, if_true, if_false, Bool.false_eq_true]
  rfl

theorem candidatesFor_eq {m n : Nat} {constrained : List Ax} {p : Cell m n → Cell m n → Bool}
    (hp : ∀ c later, activeCandidates constrained c later = some (later.filter (p c)))
    (c : Cell m n) (rest : List (Cell m n)) : candidatesFor constrained c rest = some (rest.filter (p c)) := by
  unfold candidatesFor
  by_cases h : 0 < rest.length
  · simp [h, hp]
  · have : rest = [] := by
      cases rest with
      | nil => rfl
      | cons _ _ => simp at h
    subst this; simp

theorem oneMarginPairs_eq {m n : Nat} {constrained : List Ax} {p : Cell m n → Cell m n → Bool}
    (hp : ∀ c later, activeCandidates constrained c later = some (later.filter (p c)))
    (free l : List (Cell m n)) (hl : ∀ c ∈ l, c ∈ free) :
    oneMarginPairs constrained free l = some (pairsOf p l) := by
  induction l with
  | nil => rfl
  | cons c rest ih =>
    have e := candidatesFor_eq hp c rest
    have hc : c ∈ free := hl c (by simp)
    have hfil : ((rest.filter (p c)).filter fun tup2 => free.contains c && free.contains tup2) =
        rest.filter (p c) := by
      rw [List.filter_eq_self]
      intro a ha
      have := hl a (by simp [(List.mem_filter.mp ha).1])
      simp [hc, this]
    simp only [oneMarginPairs, e, Option.bind_eq_bind, Option.bind_some, hfil,
      ih (fun d hd => hl d (by simp [hd])), Option.pure_def, pairsOf]

/-! ### effect of moves -/

theorem applyMove_fold {m n : Nat} (t acc : Table m n) (mv : Move m n) (eps : Int) (i : Fin m) (j : Fin n)
    (hnd : (mv.map Prod.fst).Nodup) :
    mv.foldl (fun acc kv => fun i j => if (i, j) = kv.1 then t kv.1.1 kv.1.2 + eps * kv.2 else acc i j) acc i j =
      if (i, j) ∈ mv.map Prod.fst then t i j + eps * moveAt mv (i, j) else acc i j := by
  induction mv generalizing acc with
  | nil => simp
  | cons kv mv ih =>
    obtain ⟨k, v⟩ := kv
    simp only [List.map_cons, List.nodup_cons] at hnd
    simp only [List.foldl_cons, List.map_cons, List.mem_cons]
    rw [ih _ hnd.2]
    by_cases h1 : (i, j) ∈ mv.map Prod.fst
    · have hne : (i, j) ≠ k := fun h => hnd.1 (h ▸ h1)
      simp only [h1, if_true, or_true, moveAt, hne, if_false]
    · by_cases h2 : (i, j) = k
      · subst h2
        simp only [h1, if_false, if_true, moveAt, true_or]
      · simp [h1, h2]

theorem moveAt_absent {m n : Nat} (mv : Move m n) (c : Cell m n) (h : c ∉ mv.map Prod.fst) : moveAt mv c = 0 := by
  induction mv with
  | nil => rfl
  | cons kv mv ih =>
    simp only [List.map_cons, List.mem_cons, not_or] at h
    simp only [moveAt, h.1, if_false]
    exact ih h.2

/-- Adding a move with distinct keys is pointwise addition. -/
theorem applyMove_apply {m n : Nat} (t : Table m n) (mv : Move m n) (eps : Int) (i : Fin m) (j : Fin n)
    (hnd : (mv.map Prod.fst).Nodup) : applyMove t mv eps i j = t i j + eps * moveAt mv (i, j) := by
  unfold applyMove
  rw [applyMove_fold t t mv eps i j hnd]
  by_cases h : (i, j) ∈ mv.map Prod.fst
  · simp [h]
  · simp [h, moveAt_absent mv _ h]

theorem pairMove_keys {m n : Nat} {a b : Cell m n} (h : a ≠ b) : ((pairMove (a, b)).map Prod.fst).Nodup := by
  simp [pairMove, h]

theorem pairMove_at {m n : Nat} {a b : Cell m n} (h : a ≠ b) (c : Cell m n) :
    moveAt (pairMove (a, b)) c = if c = a then 1 else if c = b then -1 else 0 := by
  by_cases h1 : c = a
  · simp [pairMove, moveAt, h1, h]
  · by_cases h2 : c = b
    · simp [pairMove, moveAt, h2, h.symm]
    · simp [pairMove, moveAt, h1, h2]

theorem cornerMove_keys {m n : Nat} {a b : Cell m n} (h1 : a.1 ≠ b.1) (h2 : a.2 ≠ b.2) :
    ((cornerMove a b).map Prod.fst).Nodup := by
  obtain ⟨a1, a2⟩ := a
  obtain ⟨b1, b2⟩ := b
  simp only at h1 h2
  simp [cornerMove, h1, h2, h1.symm, h2.symm]

theorem cornerMove_at {m n : Nat} {a b : Cell m n} (h1 : a.1 ≠ b.1) (h2 : a.2 ≠ b.2) (i : Fin m) (j : Fin n) :
    moveAt (cornerMove a b) (i, j) =
      ((if i = a.1 then 1 else 0) - (if i = b.1 then 1 else 0)) *
      ((if j = a.2 then 1 else 0) - (if j = b.2 then 1 else 0)) := by
  obtain ⟨a1, a2⟩ := a
  obtain ⟨b1, b2⟩ := b
  simp only at h1 h2
  simp only [cornerMove, moveAt, Prod.mk.injEq]
  by_cases hi1 : i = a1 <;> by_cases hi2 : i = b1 <;> by_cases hj1 : j = a2 <;> by_cases hj2 : j = b2 <;>
    simp_all

theorem bothMarginLoop_mem {m n : Nat} {constrained : List Ax} {p : Cell m n → Cell m n → Bool}
    (hp : ∀ c later, activeCandidates constrained c later = some (later.filter (p c)))
    (free : List (Cell m n)) (pick : Cell m n → Nat) (l : List (Cell m n)) (hs : l.Pairwise CellLt) :
    ∃ basis, bothMarginLoop constrained free pick l = some basis ∧
      ∀ mv ∈ basis, ∃ a b, a ∈ l ∧ b ∈ l ∧ CellLt a b ∧ p a b = true ∧ a ∈ free ∧ b ∈ free ∧ (a.1, b.2) ∈ free ∧
        (b.1, a.2) ∈ free ∧ mv = cornerMove a b := by
  induction l with
  | nil => exact ⟨[], rfl, by simp⟩
  | cons c rest ih =>
    obtain ⟨hs1, hs2⟩ := List.pairwise_cons.mp hs
    obtain ⟨basis, hb, hall⟩ := ih hs2
    have e := candidatesFor_eq hp c rest
    have hrest : ∀ mv ∈ basis, ∃ a b, a ∈ c :: rest ∧ b ∈ c :: rest ∧ CellLt a b ∧ p a b = true ∧ a ∈ free ∧ b ∈ free ∧
        (a.1, b.2) ∈ free ∧ (b.1, a.2) ∈ free ∧ mv = cornerMove a b := by
      intro mv hmv
      obtain ⟨a, b, h1, h2, h3⟩ := hall mv hmv
      exact ⟨a, b, by simp [h1], by simp [h2], h3⟩
    simp only [bothMarginLoop, bothMarginFor, e, Option.bind_eq_bind, Option.bind_some, hb, Option.pure_def]
    cases hpick : (rest.filter (p c))[pick c]? with
    | none => exact ⟨basis, by simp, hrest⟩
    | some tup2 =>
      have hmem := List.mem_filter.mp (List.mem_of_getElem? hpick)
      by_cases hf : (free.contains c && free.contains tup2 && free.contains (c.1, tup2.2) &&
        free.contains (tup2.1, c.2)) = true
      · simp only [hf, if_true, Option.bind_some]
        refine ⟨_, rfl, ?_⟩
        intro mv hmv
        rcases List.mem_append.mp hmv with h | h
        · simp only [List.mem_singleton] at h
          simp only [Bool.and_eq_true, List.contains_iff_mem] at hf
          exact ⟨c, tup2, by simp, by simp [hmem.1], hs1 _ hmem.1, hmem.2, hf.1.1.1, hf.1.1.2, hf.1.2, hf.2, h⟩
        · exact hrest mv h
      · simp only [hf, Bool.false_eq_true, if_false, Option.bind_some, List.nil_append]
        exact ⟨basis, rfl, hrest⟩

end GeNSIT
