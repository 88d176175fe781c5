import Verif.Cycle.ConnLemmas

/-! # Property theorems C24, C25, C63, C64 (cycle-based Markov basis) -/

set_option linter.unusedSimpArgs false

namespace GeNSIT

open Spec

/-- An order on nodes for the examples: destinations before origins, then by index (the order of the labels
`d1, d2, …, o1, o2, …` while there are at most nine of each). -/
def nodeRank {m n : Nat} : Node m n → Nat
  | .d j => j
  | .o i => n + i

/-- The linear order induced by `nodeRank`. -/
@[reducible] def exampleOrder (m n : Nat) : LinearOrder (Node m n) :=
  LinearOrder.lift' nodeRank (by
    intro p q h
    cases p <;> cases q <;> simp only [nodeRank] at h
    · congr 1; ext; omega
    · rename_i i j; have := j.2; omega
    · rename_i j i; have := j.2; omega
    · congr 1; ext; exact h)

/-! ## C24 -/

/-- `p` and `q` are the row node and the column node of cell `k`, in either order. -/
def Joins {m n : Nat} (k : Cell m n) (p q : Node m n) : Prop :=
  (p = .o k.1 ∧ q = .d k.2) ∨ (p = .d k.2 ∧ q = .o k.1)

/-- **C24.**  Whatever the order on node labels and whatever the fixed cells: the cycle-based generator returns a
basis; every move of it is read off a simple cycle of free cells, its `k`-th entry being `(-1)^k` on the `k`-th
edge, the edges being distinct; and adding it any number of times to any table leaves every row sum, every column
sum, the total and all fixed cells unchanged. -/
theorem C24_cycle_moves {m n : Nat} [LinearOrder (Node m n)] (fixed : List (Cell m n)) :
    ∃ basis, cycleBasis fixed = some basis ∧
    ∀ mv ∈ basis,
      (∃ c : List (Node m n), SimpleCycle (freeCells fixed) c ∧ c.length ≤ 10 ∧ mv.length = c.length ∧
        (mv.map Prod.fst).Nodup ∧
        ∀ k cell v, mv[k]? = some (cell, v) → v = (-1) ^ k ∧ cell ∉ fixed ∧
          ∃ p q, c[k]? = some p ∧ (c ++ c.take 1)[k + 1]? = some q ∧ Joins cell p q) ∧
      ∀ (t : Table m n) (eps : Int),
        (∀ i, rowSum (applyMove t mv eps) i = rowSum t i) ∧
        (∀ j, colSum (applyMove t mv eps) j = colSum t j) ∧
        total (applyMove t mv eps) = total t ∧ AgreeAt fixed (applyMove t mv eps) t := by
  obtain ⟨basis, hb, hall, _, _⟩ := mapM_cycleMove (findAllCycles (freeCells fixed) 10)
    (fun c hc => (findAllCycles_sound _ _ hc).1)
  refine ⟨basis, hb, ?_⟩
  intro mv hmv
  obtain ⟨c, hc, hcm⟩ := hall mv hmv
  obtain ⟨hs, hl, _⟩ := findAllCycles_sound _ _ hc
  obtain ⟨mv2, hcm2, hk, hrow, hcol, hval⟩ := cycleMove_effect hs
  rw [hcm, Option.some.injEq] at hcm2
  subst hcm2
  constructor
  · obtain ⟨a, l, rfl⟩ : ∃ a l, c = a :: l := by
      cases c with
      | nil => exact absurd hs.long (by simp)
      | cons a l => exact ⟨a, l, rfl⟩
    have he := cycleMove_eq hs
    rw [hcm, Option.some.injEq] at he
    obtain ⟨h1, h2⟩ := altMove_get _ 1 (hs.closed a l rfl)
    rw [← he] at h1 h2
    refine ⟨a :: l, hs, hl, by simpa using h1, hk, ?_⟩
    intro k cell v hkv
    obtain ⟨h3, h4, p, q, h5, h6, h7⟩ := h2 k cell v hkv
    refine ⟨by simpa using h4, (mem_freeCells _ _).mp h3, p, q, ?_, by simpa using h6, ?_⟩
    · have hklt : k < mv.length := by
        rw [List.getElem?_eq_some_iff] at hkv; exact hkv.1
      rw [h1] at hklt
      rw [List.getElem?_append_left (by simpa using hklt)] at h5
      exact h5
    · cases p <;> cases q <;> simp [edgeCell] at h7 <;> subst h7
      · exact Or.inl ⟨rfl, rfl⟩
      · exact Or.inr ⟨rfl, rfl⟩
  · intro t eps
    have hap : ∀ i j, applyMove t mv eps i j = t i j + eps * moveAt mv (i, j) :=
      fun i j => applyMove_apply t mv eps i j hk
    have hR : ∀ i, rowSum (applyMove t mv eps) i = rowSum t i := by
      intro i
      simp only [rowSum, hap]
      rw [Finset.sum_add_distrib, ← Finset.mul_sum, hrow]; simp
    refine ⟨hR, ?_, total_of_rows hR, ?_⟩
    · intro j
      simp only [colSum, hap]
      rw [Finset.sum_add_distrib, ← Finset.mul_sum, hcol]; simp
    · intro i j hf
      have : (i, j) ∉ mv.map Prod.fst := fun hm => (hval _ _ (moveAt_mem hm)).1 hf
      rw [hap, moveAt_absent _ _ this]; simp

/-- A 3×3 table with the diagonal fixed has exactly one cycle, of length six. -/
example : letI := exampleOrder 3 3
    cycleBasis (m := 3) (n := 3) [(0, 0), (1, 1), (2, 2)] =
      some [[((1, 0), 1), ((1, 2), -1), ((0, 2), 1), ((0, 1), -1), ((2, 1), 1), ((2, 0), -1)]] := by
  decide +kernel

/-! ## C25 -/

/-- **C25.**  For node sequences without repetition, over any ordered set of labels: two sequences get the same
canonical form exactly when they are the same cycle up to starting point and direction; and the list of collected
cycles has no two members that are the same cycle. -/
theorem C25_canonical_form {α : Type} [LinearOrder α] (c c' : List α) (hc : c.Nodup) (hc' : c'.Nodup) :
    canonical c = canonical c' ↔ SameCycle c c' := by
  constructor
  · intro h
    cases e : canonical c with
    | none =>
      have : c = [] := by
        by_contra hne
        obtain ⟨x, hx⟩ := canonical_isSome hc hne
        rw [e] at hx; cases hx
      have h' : c' = [] := by
        by_contra hne
        obtain ⟨x, hx⟩ := canonical_isSome hc' hne
        rw [← h, e] at hx; cases hx
      subst this h'
      exact Or.inl (List.IsRotated.refl _)
    | some x =>
      have h1 := canonical_sameCycle hc e
      have h2 := canonical_sameCycle hc' (h ▸ e)
      exact SameCycle.trans' (SameCycle.symm' h1) h2
  · exact canonical_congr hc

example : letI := exampleOrder 2 2
    canonical (α := Node 2 2) [.o 1, .d 0, .o 0, .d 1] = canonical (α := Node 2 2) [.d 0, .o 1, .d 1, .o 0] := by
  decide +kernel

/-- **C25, no repeats.** -/
theorem C25_no_repeats {m n : Nat} [LinearOrder (Node m n)] (free : List (Cell m n)) (maxLength : Nat) :
    (findAllCycles free maxLength).Pairwise fun c c' => ¬ SameCycle c c' := by
  have hnd : (findAllCycles free maxLength).Nodup := List.nodup_dedup _
  refine List.Pairwise.imp_of_mem ?_ hnd
  intro c c' hc hc' hne hs
  obtain ⟨h1, _, h2⟩ := findAllCycles_sound _ _ hc
  obtain ⟨_, _, h4⟩ := findAllCycles_sound _ _ hc'
  have := canonical_congr h1.nodup hs
  rw [h2, h4, Option.some.injEq] at this
  exact hne this

/-! ## C63 -/

/-- **C63.**  The cycle search is exact: a node sequence of at most `maxLength` nodes is a simple cycle of free
cells exactly when it is, up to starting point and direction, one of the collected cycles. -/
theorem C63_cycle_search_exact {m n : Nat} [LinearOrder (Node m n)] (free : List (Cell m n)) (maxLength : Nat)
    (c : List (Node m n)) :
    (SimpleCycle free c ∧ c.length ≤ maxLength) ↔ ∃ c' ∈ findAllCycles free maxLength, SameCycle c' c := by
  constructor
  · rintro ⟨h1, h2⟩; exact findAllCycles_complete free maxLength h1 h2
  · rintro ⟨c', hc', hs⟩
    obtain ⟨h1, h2, _⟩ := findAllCycles_sound _ _ hc'
    exact ⟨SimpleCycle.same' h1 hs, SameCycle.length' hs ▸ h2⟩

/-- In a full 2×2 table the four corners form a simple cycle. -/
example : SimpleCycle (m := 2) (n := 2) [(0, 0), (0, 1), (1, 0), (1, 1)] [.o 0, .d 0, .o 1, .d 1] := by
  refine ⟨by decide, by decide, ?_⟩
  rintro c0 cs h
  cases h
  simp only [List.cons_append, List.nil_append, List.isChain_cons_cons]
  refine ⟨⟨0, 0, by decide, Or.inl ⟨rfl, rfl⟩⟩, ⟨1, 0, by decide, Or.inr ⟨rfl, rfl⟩⟩, ⟨1, 1, by decide, Or.inl ⟨rfl, rfl⟩⟩,
    ⟨0, 1, by decide, Or.inr ⟨rfl, rfl⟩⟩, by simp⟩

/-! ## C64 -/

/-- **C64 (partial: at most five rows or at most five columns).**  For any set of fixed cells, two non-negative
tables with equal margins that agree at the fixed cells are joined by `±1` applications of cycle moves through
non-negative tables. -/
theorem C64_cycle_basis_connects_partial {m n : Nat} [LinearOrder (Node m n)] (hmn : m ≤ 5 ∨ n ≤ 5)
    (fixed : List (Cell m n)) (basis : List (Move m n)) (hb : cycleBasis fixed = some basis)
    (A B : Table m n) (hA : Nonneg A) (hB : Nonneg B) (hrow : ∀ i, rowSum A i = rowSum B i)
    (hcol : ∀ j, colSum A j = colSum B j) (hf : AgreeAt fixed A B) : Reaches basis A B :=
  cycle_connect hmn hb B hB _ A hA hrow hcol hf (le_refl _)

/-- A move of length six is needed here: diagonal fixed, the two cyclic permutation matrices. -/
example : Nonneg (m := 3) (n := 3) ![![0, 1, 0], ![0, 0, 1], ![1, 0, 0]] ∧
    Nonneg (m := 3) (n := 3) ![![0, 0, 1], ![1, 0, 0], ![0, 1, 0]] ∧
    (∀ i, rowSum (m := 3) (n := 3) ![![0, 1, 0], ![0, 0, 1], ![1, 0, 0]] i =
      rowSum (m := 3) (n := 3) ![![0, 0, 1], ![1, 0, 0], ![0, 1, 0]] i) ∧
    (∀ j, colSum (m := 3) (n := 3) ![![0, 1, 0], ![0, 0, 1], ![1, 0, 0]] j =
      colSum (m := 3) (n := 3) ![![0, 0, 1], ![1, 0, 0], ![0, 1, 0]] j) ∧
    AgreeAt (m := 3) (n := 3) [(0, 0), (1, 1), (2, 2)] ![![0, 1, 0], ![0, 0, 1], ![1, 0, 0]]
      ![![0, 0, 1], ![1, 0, 0], ![0, 1, 0]] := by
  unfold Nonneg AgreeAt rowSum colSum; decide +kernel

/-- The free cells of the counter-example: a single cycle of length twelve in a 6×6 table. -/
def ringFree : List (Cell 6 6) :=
  [(0, 0), (0, 1), (1, 1), (1, 2), (2, 2), (2, 3), (3, 3), (3, 4), (4, 4), (4, 5), (5, 5), (5, 0)]

/-- All other cells are fixed. -/
def ringFixed : List (Cell 6 6) := (allCells 6 6).filter fun c => decide (c ∉ ringFree)

/-- **C64 fails beyond that bound**: with the maximum length of ten that the generator uses, there are a 6×6 table
with fixed cells, and two non-negative tables with the same margins and the same fixed cells, that the cycle basis
does not join. -/
theorem C64_long_cycles_missed [LinearOrder (Node 6 6)] :
    ∃ (basis : List (Move 6 6)) (A B : Table 6 6), cycleBasis ringFixed = some basis ∧ Nonneg A ∧ Nonneg B ∧
      (∀ i, rowSum A i = rowSum B i) ∧ (∀ j, colSum A j = colSum B j) ∧ AgreeAt ringFixed A B ∧
      ¬ Reaches basis A B := by
  have h0 : ((origins (freeCells ringFixed)).flatMap fun o => dfs (freeCells ringFixed) o 10 (10 + 1) o [o]) = [] := by
    decide +kernel
  have hb : cycleBasis ringFixed = some [] := by
    unfold cycleBasis findAllCycles
    rw [h0]; rfl
  refine ⟨[], fun i j => if i = j then 1 else 0, fun i j => if (j : Nat) = (i + 1) % 6 then 1 else 0, hb, ?_, ?_, ?_, ?_,
    ?_, ?_⟩
  · unfold Nonneg; decide +kernel
  · unfold Nonneg; decide +kernel
  · unfold rowSum; decide +kernel
  · unfold colSum; decide +kernel
  · unfold AgreeAt; decide +kernel
  · intro h
    rcases Relation.ReflTransGen.cases_head h with h | ⟨t, ⟨mv, hmv, _⟩, _⟩
    · have := congrFun (congrFun h 0) 0
      simp at this
    · simp at hmv

end GeNSIT
