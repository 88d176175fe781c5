import Verif.Cycle.MoveLemmas
import Verif.Basis.ConnProps
import Mathlib.Dynamics.PeriodicPts.Defs
import Mathlib.Data.List.Iterate
import Mathlib.Data.Fintype.Pigeonhole

/-! # Sign-conformal cycles: helper lemmas for the connectivity of the cycle basis -/

set_option linter.unusedSimpArgs false

namespace GeNSIT

open Spec

instance {m n : Nat} : Finite (Node m n) :=
  Finite.of_injective (β := Fin m ⊕ Fin n)
    (fun p => match p with | .o i => Sum.inl i | .d j => Sum.inr j)
    (by intro p q h; cases p <;> cases q <;> simp_all)

/-- Directed edge along which `D` has the sign of the tail node. -/
def Dir {m n : Nat} (D : Table m n) (p q : Node m n) : Prop :=
  ∃ k, edgeCell p q = some k ∧ 0 < nodeSign p * D k.1 k.2

theorem edgeCell_comm {m n : Nat} (p q : Node m n) : edgeCell p q = edgeCell q p := by
  cases p <;> cases q <;> rfl

theorem edgeCell_sign {m n : Nat} {p q : Node m n} {k : Cell m n} (h : edgeCell p q = some k) :
    nodeSign q = - nodeSign p := by
  cases p <;> cases q <;> simp [edgeCell] at h <;> rfl

theorem Dir.next {m n : Nat} {D : Table m n} (hr : ∀ i, rowSum D i = 0) (hc : ∀ j, colSum D j = 0) {p q : Node m n}
    (h : Dir D p q) : ∃ r, Dir D q r := by
  obtain ⟨k, e, hp⟩ := h
  cases p with
  | o i =>
    cases q with
    | o _ => simp [edgeCell] at e
    | d j =>
      simp [edgeCell] at e; subst e
      simp only [nodeSign, one_mul] at hp
      have hz : ∑ i, (- D i j) = 0 := by rw [Finset.sum_neg_distrib]; have := hc j; simp only [colSum] at this; omega
      obtain ⟨i', _, hi'⟩ := Finset.exists_pos_of_sum_zero_of_exists_nonzero _ hz ⟨i, Finset.mem_univ _, by omega⟩
      exact ⟨.o i', (i', j), rfl, by simp only [nodeSign]; omega⟩
  | d j =>
    cases q with
    | d _ => simp [edgeCell] at e
    | o i =>
      simp [edgeCell] at e; subst e
      simp only [nodeSign] at hp
      have hz : ∑ j, D i j = 0 := hr i
      obtain ⟨j', _, hj'⟩ := Finset.exists_pos_of_sum_zero_of_exists_nonzero _ hz ⟨j, Finset.mem_univ _, by omega⟩
      exact ⟨.d j', (i, j'), rfl, by simp only [nodeSign]; omega⟩

theorem isChain_iterate {α : Type} {R : α → α → Prop} (f : α → α) (hf : ∀ a, R a (f a)) (k : Nat) :
    ∀ a, List.IsChain R (List.iterate f a k) := by
  induction k with
  | zero => intro a; simp [List.iterate]
  | succ k ih =>
    intro a
    cases k with
    | zero => simp [List.iterate]
    | succ k =>
      have := ih (f a)
      simp only [List.iterate] at this ⊢
      rw [List.isChain_cons_cons]
      exact ⟨hf a, this⟩

theorem exists_simple_closed {α : Type} [Finite α] (R : α → α → Prop) (hirr : ∀ a, ¬ R a a)
    (hasym : ∀ a b, R a b → ¬ R b a) (f : α → α) (hf : ∀ a, R a (f a)) (x : α) :
    ∃ c : List α, c.Nodup ∧ 3 ≤ c.length ∧ ClosedChain R c := by
  obtain ⟨a, b, hab, he⟩ := Finite.exists_ne_map_eq_of_infinite (fun k : ℕ => f^[k] x)
  have hper : ∃ y, y ∈ Function.periodicPts f := by
    rcases lt_or_gt_of_ne hab with h | h
    · refine ⟨f^[a] x, b - a, by omega, ?_⟩
      rw [Function.IsPeriodicPt, Function.IsFixedPt, ← Function.iterate_add_apply, Nat.sub_add_cancel h.le, he]
    · refine ⟨f^[b] x, a - b, by omega, ?_⟩
      rw [Function.IsPeriodicPt, Function.IsFixedPt, ← Function.iterate_add_apply, Nat.sub_add_cancel h.le, he]
  obtain ⟨y, hy⟩ := hper
  have hpos := Function.minimalPeriod_pos_of_mem_periodicPts hy
  have hP : f^[Function.minimalPeriod f y] y = y := Function.iterate_minimalPeriod
  generalize hp : Function.minimalPeriod f y = p at hpos hP
  refine ⟨List.iterate f y p, ?_, ?_, ?_⟩
  · rw [← List.range_map_iterate]
    refine List.Nodup.map_on ?_ List.nodup_range
    intro i hi j hj hij
    rw [List.mem_range] at hi hj
    exact Function.iterate_injOn_Iio_minimalPeriod (by rw [hp]; exact hi) (by rw [hp]; exact hj) hij
  · rw [List.length_iterate]
    by_contra hlt
    have : p = 1 ∨ p = 2 := by omega
    rcases this with h | h <;> subst h
    · simp only [Function.iterate_one] at hP
      have := hf y; rw [hP] at this; exact hirr y this
    · simp only [Function.iterate_succ, Function.iterate_zero, Function.comp, id] at hP
      have h1 := hf (f y); rw [hP] at h1
      exact hasym _ _ (hf y) h1
  · obtain ⟨p, rfl⟩ : ∃ k, p = k + 1 := ⟨p - 1, by omega⟩
    have h1 := isChain_iterate f hf (p + 1 + 1) y
    rw [List.iterate_add, hP] at h1
    simpa [List.iterate, ClosedChain] using h1

/-- A non-zero table with zero margins contains a simple cycle along which its signs alternate. -/
theorem exists_conformal_cycle {m n : Nat} {D : Table m n} (hr : ∀ i, rowSum D i = 0) (hc : ∀ j, colSum D j = 0)
    (hne : ∃ i j, D i j ≠ 0) : ∃ c : List (Node m n), c.Nodup ∧ 3 ≤ c.length ∧ ClosedChain (Dir D) c := by
  obtain ⟨i, j, hij⟩ := hne
  have hstart : ∃ p q, Dir D p q := by
    rcases lt_or_gt_of_ne hij with h | h
    · exact ⟨.d j, .o i, (i, j), rfl, by simp only [nodeSign]; omega⟩
    · exact ⟨.o i, .d j, (i, j), rfl, by simp only [nodeSign]; omega⟩
  obtain ⟨p0, q0, h0⟩ := hstart
  classical
  have hch : ∀ p : {p : Node m n // ∃ q, Dir D p q}, ∃ q : {p : Node m n // ∃ q, Dir D p q}, Dir D p.1 q.1 := by
    rintro ⟨p, q, h⟩
    exact ⟨⟨q, Dir.next hr hc h⟩, h⟩
  choose f hf using hch
  obtain ⟨c, h1, h2, h3⟩ := exists_simple_closed (fun a b : {p : Node m n // ∃ q, Dir D p q} => Dir D a.1 b.1)
    (by
      rintro ⟨a, _⟩ ⟨k, e, _⟩
      cases a <;> simp [edgeCell] at e)
    (by
      rintro ⟨a, _⟩ ⟨b, _⟩ ⟨k, e, h⟩ ⟨k', e', h'⟩
      simp only at e e' h h'
      rw [edgeCell_comm, e, Option.some.injEq] at e'
      subst e'
      rw [edgeCell_sign e] at h'
      linarith)
    f hf ⟨p0, q0, h0⟩
  refine ⟨c.map Subtype.val, h1.map Subtype.val_injective, by simpa using h2, ?_⟩
  cases c with
  | nil => simp [ClosedChain]
  | cons a l =>
    simp only [ClosedChain, List.map_cons] at h3 ⊢
    have : a.1 :: l.map Subtype.val ++ [a.1] = (a :: l ++ [a]).map Subtype.val := by simp
    rw [this, List.isChain_map]
    exact h3

theorem sign_sum_path {m n : Nat} {cells : List (Cell m n)} (l : List (Node m n)) :
    ∀ p z, List.IsChain (Adjacent cells) (p :: l) → (p :: l).getLast? = some z →
      2 * ((p :: l).map nodeSign).sum = nodeSign p + nodeSign z := by
  induction l with
  | nil => intro p z _ hz; simp at hz; subst hz; simp; ring
  | cons q l ih =>
    intro p z hc hz
    rw [List.isChain_cons_cons] at hc
    have := ih q z hc.2 (by simpa using hz)
    rw [List.map_cons, List.sum_cons, mul_add, this, Adjacent.sign hc.1]; ring

theorem sign_split {m n : Nat} (l : List (Node m n)) :
    (l.map nodeSign).sum = ((l.filterMap fun p => match p with | .o i => some i | .d _ => none).length : Int) -
      (l.filterMap fun p => match p with | .d j => some j | .o _ => none).length ∧
    l.length = (l.filterMap fun p => match p with | .o i => some i | .d _ => none).length +
      (l.filterMap fun p => match p with | .d j => some j | .o _ => none).length := by
  induction l with
  | nil => simp
  | cons p l ih =>
    cases p <;> simp [nodeSign, ih.1] <;> (constructor <;> (try have := ih.2) <;> omega)

/-- A simple cycle visits each row and each column at most once. -/
theorem simpleCycle_length {m n : Nat} {cells : List (Cell m n)} {c : List (Node m n)} (h : SimpleCycle cells c) :
    c.length ≤ 2 * m ∧ c.length ≤ 2 * n := by
  obtain ⟨a, l, rfl⟩ : ∃ a l, c = a :: l := by
    cases c with
    | nil => exact absurd h.long (by simp)
    | cons a l => exact ⟨a, l, rfl⟩
  have hs := sign_sum_path (l ++ [a]) a a (h.closed a l rfl) (by rw [← List.cons_append, List.getLast?_concat])
  rw [← List.cons_append, List.map_append, List.sum_append] at hs
  have hz : ((a :: l).map nodeSign).sum = 0 := by simp only [List.map_cons, List.map_nil, List.sum_cons, List.sum_nil] at hs ⊢; omega
  obtain ⟨h1, h2⟩ := sign_split (a :: l)
  rw [hz] at h1
  have ho : ((a :: l).filterMap fun p => match p with | .o i => some i | .d _ => none).Nodup := by
    refine List.Nodup.filterMap ?_ h.nodup
    intro x y b hx hy
    cases x <;> cases y <;> simp_all
  have hd : ((a :: l).filterMap fun p => match p with | .d j => some j | .o _ => none).Nodup := by
    refine List.Nodup.filterMap ?_ h.nodup
    intro x y b hx hy
    cases x <;> cases y <;> simp_all
  have l1 := ho.length_le_card
  have l2 := hd.length_le_card
  simp only [Fintype.card_fin] at l1 l2
  omega

theorem altMove_conform {m n : Nat} {D : Table m n} {R : Node m n → Node m n → Prop} {σ : Int}
    (hR : ∀ p q, R p q → ∃ k, edgeCell p q = some k ∧ 0 < σ * nodeSign p * D k.1 k.2) (l : List (Node m n)) :
    ∀ (s : Int) (p : Node m n), (s = 1 ∨ s = -1) → List.IsChain R (p :: l) → ∀ k v, (k, v) ∈ altMove s (p :: l) →
      0 < (σ * (s * nodeSign p)) * v * D k.1 k.2 := by
  induction l with
  | nil => intro s p _ _ k v h; simp [altMove] at h
  | cons q l ih =>
    intro s p hs hc k v h
    rw [List.isChain_cons_cons] at hc
    obtain ⟨k0, e, hpos⟩ := hR p q hc.1
    simp only [altMove, e, List.mem_cons, Prod.mk.injEq] at h
    rcases h with ⟨rfl, rfl⟩ | h
    · have : v * v = 1 := by rcases hs with rfl | rfl <;> rfl
      have e2 : σ * (v * nodeSign p) * v * D k.1 k.2 = (v * v) * (σ * nodeSign p * D k.1 k.2) := by ring
      rw [e2, this, one_mul]; exact hpos
    · have := ih (-s) q (by rcases hs with rfl | rfl <;> simp) hc.2 k v h
      rw [edgeCell_sign e] at this
      have e2 : σ * (-s * -nodeSign p) * v * D k.1 k.2 = σ * (s * nodeSign p) * v * D k.1 k.2 := by ring
      rwa [e2] at this

/-- Some move of the cycle basis, up to sign, moves `A` towards `B` cell by cell. -/
theorem cycle_step {m n : Nat} [LinearOrder (Node m n)] {fixed : List (Cell m n)} {basis : List (Move m n)}
    (hmn : m ≤ 5 ∨ n ≤ 5) (hb : cycleBasis fixed = some basis) {D : Table m n} (hr : ∀ i, rowSum D i = 0)
    (hc : ∀ j, colSum D j = 0) (hf : ∀ i j, (i, j) ∈ fixed → D i j = 0) (hne : ∃ i j, D i j ≠ 0) :
    ∃ mv ∈ basis, ∃ e : Int, (e = 1 ∨ e = -1) ∧ (mv.map Prod.fst).Nodup ∧
      (∀ i, ∑ j, moveAt mv (i, j) = 0) ∧ (∀ j, ∑ i, moveAt mv (i, j) = 0) ∧ mv ≠ [] ∧
      (∀ k v, (k, v) ∈ mv → k ∉ fixed ∧ (v = 1 ∨ v = -1) ∧ 0 < (e * v) * D k.1 k.2) := by
  obtain ⟨c, hn, hl, hch⟩ := exists_conformal_cycle hr hc hne
  have hdir : ∀ p q, Dir D p q → Adjacent (freeCells fixed) p q := by
    rintro p q ⟨k, e, hp⟩
    have hk : k ∈ freeCells fixed := by
      rw [mem_freeCells]; intro hk
      rw [hf k.1 k.2 hk] at hp; simp at hp
    cases p <;> cases q <;> simp [edgeCell] at e <;> subst e
    · exact ⟨_, _, hk, Or.inl ⟨rfl, rfl⟩⟩
    · exact ⟨_, _, hk, Or.inr ⟨rfl, rfl⟩⟩
  have hsc : SimpleCycle (freeCells fixed) c := by
    rw [simpleCycle_iff]
    refine ⟨hn, hl, ?_⟩
    cases c with
    | nil => trivial
    | cons a l => exact List.IsChain.imp (fun p q h => hdir p q h) hch
  have hlen : c.length ≤ 10 := by have := simpleCycle_length hsc; omega
  obtain ⟨c', hc', hsame⟩ := findAllCycles_complete (freeCells fixed) 10 hsc hlen
  have hsc' := SimpleCycle.same' hsc (SameCycle.symm' hsame)
  obtain ⟨basis', hb', _, hall, _⟩ := mapM_cycleMove (findAllCycles (freeCells fixed) 10)
    (fun c hc => (findAllCycles_sound _ _ hc).1)
  rw [cycleBasis, hb', Option.some.injEq] at hb
  subst hb
  obtain ⟨mv, hmv, hcm⟩ := hall c' hc'
  obtain ⟨mv2, hcm2, hk, hrow, hcol, hval⟩ := cycleMove_effect hsc'
  rw [hcm, Option.some.injEq] at hcm2
  subst hcm2
  obtain ⟨a, l, rfl⟩ : ∃ a l, c' = a :: l := by
    cases c' with
    | nil => exact absurd hsc'.long (by simp)
    | cons a l => exact ⟨a, l, rfl⟩
  have hmveq := cycleMove_eq hsc'
  rw [hcm, Option.some.injEq] at hmveq
  have hnonempty : mv ≠ [] := by
    have := (altMove_get _ 1 (hsc'.closed a l rfl)).1
    rw [← hmveq] at this
    have h3 := hsc'.long
    intro h0
    rw [h0] at this; simp at this
  -- the direction of the canonical form
  have hdirs : ∃ σ : Int, (σ = 1 ∨ σ = -1) ∧ ∃ R : Node m n → Node m n → Prop, (∀ p q, R p q → ∃ k, edgeCell p q = some k ∧
      0 < σ * nodeSign p * D k.1 k.2) ∧ ClosedChain R (a :: l) := by
    rcases hsame with h | h
    · refine ⟨1, Or.inl rfl, Dir D, ?_, closedChain_rotated h.symm hch⟩
      rintro p q ⟨k, e, hp⟩; exact ⟨k, e, by simpa using hp⟩
    · refine ⟨-1, Or.inr rfl, fun p q => Dir D q p, ?_, ?_⟩
      · rintro p q ⟨k, e, hp⟩
        refine ⟨k, by rw [edgeCell_comm, e], ?_⟩
        have := edgeCell_sign e
        have e2 : -1 * nodeSign p * D k.1 k.2 = nodeSign q * D k.1 k.2 := by rw [this]; ring
        rw [e2]; exact hp
      · have h1 : ClosedChain (fun p q => Dir D q p) c.reverse := by
          cases c with
          | nil => simp [ClosedChain]
          | cons x xs =>
            have h2 : List.IsChain (fun p q => Dir D q p) (x :: xs ++ [x]).reverse := by
              rw [List.isChain_reverse]; exact hch
            have e : (x :: xs ++ [x]).reverse = x :: xs.reverse ++ [x] := by simp
            rw [e] at h2
            have h3 : ClosedChain (fun p q => Dir D q p) (x :: xs.reverse) := h2
            refine closedChain_rotated ⟨1, ?_⟩ h3
            simp
        exact closedChain_rotated h.symm h1
  obtain ⟨σ, hσ, R, hR, hRc⟩ := hdirs
  refine ⟨mv, hmv, σ * (1 * nodeSign a), ?_, hk, hrow, hcol, hnonempty, ?_⟩
  · rcases hσ with rfl | rfl <;> rcases nodeSign_cases a with h | h <;> simp [h]
  · intro k v hkv
    refine ⟨(hval k v hkv).1, (hval k v hkv).2, ?_⟩
    rw [hmveq] at hkv
    exact altMove_conform hR (l ++ [a]) 1 a (Or.inl rfl) hRc k v hkv

theorem cycle_connect {m n : Nat} [LinearOrder (Node m n)] {fixed : List (Cell m n)} {basis : List (Move m n)}
    (hmn : m ≤ 5 ∨ n ≤ 5) (hb : cycleBasis fixed = some basis) (B : Table m n) (hB : Nonneg B) (N : Nat) :
    ∀ A : Table m n, Nonneg A → (∀ i, rowSum A i = rowSum B i) → (∀ j, colSum A j = colSum B j) →
      AgreeAt fixed A B → ∑ c : Cell m n, (B c.1 c.2 - A c.1 c.2).natAbs ≤ N → Reaches basis A B := by
  induction N with
  | zero =>
    intro A _ _ _ _ hd
    have h0 : ∑ c : Cell m n, (B c.1 c.2 - A c.1 c.2).natAbs = 0 := by omega
    rw [Finset.sum_eq_zero_iff] at h0
    have : A = B := by
      funext i j; have := h0 (i, j) (Finset.mem_univ _); simp only at this; omega
    rw [this]; exact Relation.ReflTransGen.refl
  | succ N ih =>
    intro A hA hrow hcol hf hd
    by_cases hAB : A = B
    · rw [hAB]; exact Relation.ReflTransGen.refl
    · obtain ⟨i0, hi0⟩ := Function.ne_iff.mp hAB
      obtain ⟨j0, hj0⟩ := Function.ne_iff.mp hi0
      obtain ⟨mv, hmv, e, he, hk, hr, hc, hne, hval⟩ := cycle_step (D := fun i j => B i j - A i j) hmn hb
        (by intro i; have := hrow i; simp only [rowSum, Finset.sum_sub_distrib] at this ⊢; omega)
        (by intro j; have := hcol j; simp only [colSum, Finset.sum_sub_distrib] at this ⊢; omega)
        (by intro i j h; have := hf i j h; omega)
        ⟨i0, j0, by omega⟩
      have hap : ∀ i j, applyMove A mv e i j = A i j + e * moveAt mv (i, j) :=
        fun i j => applyMove_apply A mv e i j hk
      have hcell : ∀ i j, (i, j) ∈ mv.map Prod.fst →
          (e * moveAt mv (i, j) = 1 ∧ 0 < B i j - A i j) ∨ (e * moveAt mv (i, j) = -1 ∧ B i j - A i j < 0) := by
        intro i j h
        obtain ⟨_, hv, hp⟩ := hval _ _ (moveAt_mem h)
        simp only at hp
        have : e * moveAt mv (i, j) = 1 ∨ e * moveAt mv (i, j) = -1 := by
          rcases he with rfl | rfl <;> rcases hv with h | h <;> simp [h]
        rcases this with h | h
        · left; rw [h] at hp; exact ⟨h, by omega⟩
        · right; rw [h] at hp; exact ⟨h, by omega⟩
      have hcell0 : ∀ i j, (i, j) ∉ mv.map Prod.fst → e * moveAt mv (i, j) = 0 := by
        intro i j h; rw [moveAt_absent _ _ h]; ring
      have hnn : Nonneg (applyMove A mv e) := by
        intro i j
        rw [hap]
        have h1 := hA i j
        have h2 := hB i j
        by_cases h : (i, j) ∈ mv.map Prod.fst
        · rcases hcell i j h with ⟨h3, h4⟩ | ⟨h3, h4⟩ <;> omega
        · rw [hcell0 i j h]; omega
      refine Relation.ReflTransGen.head ⟨mv, hmv, e, he, rfl, hnn⟩ ?_
      apply ih _ hnn
      · intro i
        rw [← hrow i]
        simp only [rowSum, hap]
        rw [Finset.sum_add_distrib, ← Finset.mul_sum, hr]; simp
      · intro j
        rw [← hcol j]
        simp only [colSum, hap]
        rw [Finset.sum_add_distrib, ← Finset.mul_sum, hc]; simp
      · intro i j h
        rw [hap, ← hf i j h]
        have : (i, j) ∉ mv.map Prod.fst := by
          intro hm; exact (hval _ _ (moveAt_mem hm)).1 h
        rw [hcell0 i j this]; simp
      · have hlt : ∑ c : Cell m n, (B c.1 c.2 - applyMove A mv e c.1 c.2).natAbs <
            ∑ c : Cell m n, (B c.1 c.2 - A c.1 c.2).natAbs := by
          apply Finset.sum_lt_sum
          · rintro ⟨i, j⟩ _
            simp only [hap]
            by_cases h : (i, j) ∈ mv.map Prod.fst
            · rcases hcell i j h with ⟨h3, h4⟩ | ⟨h3, h4⟩ <;> omega
            · rw [hcell0 i j h]; simp
          · obtain ⟨⟨⟨i, j⟩, v⟩, rest, rfl⟩ : ∃ kv rest, mv = kv :: rest := by
              cases mv with
              | nil => exact absurd rfl hne
              | cons a l => exact ⟨a, l, rfl⟩
            refine ⟨(i, j), Finset.mem_univ _, ?_⟩
            simp only [hap]
            rcases hcell i j (by simp) with ⟨h3, h4⟩ | ⟨h3, h4⟩ <;> omega
        omega

end GeNSIT
