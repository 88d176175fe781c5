import Verif.Cycle.Lemmas
import Verif.Basis.Props

set_option linter.unusedSimpArgs false

namespace GeNSIT

open Spec

/-! ### the move of a cycle in closed form -/

/-- `+1` for origins, `-1` for destinations. -/
def nodeSign {m n : Nat} : Node m n → Int
  | .o _ => 1
  | .d _ => -1

theorem nodeSign_sq {m n : Nat} (p : Node m n) : nodeSign p * nodeSign p = 1 := by cases p <;> rfl

theorem nodeSign_cases {m n : Nat} (p : Node m n) : nodeSign p = 1 ∨ nodeSign p = -1 := by cases p <;> simp [nodeSign]

theorem Adjacent.sign {m n : Nat} {cells : List (Cell m n)} {p q : Node m n} (h : Adjacent cells p q) :
    nodeSign q = - nodeSign p := by
  obtain ⟨i, j, _, ⟨rfl, rfl⟩ | ⟨rfl, rfl⟩⟩ := h <;> rfl

theorem Adjacent.edge {m n : Nat} {cells : List (Cell m n)} {p q : Node m n} (h : Adjacent cells p q) :
    ∃ k ∈ cells, edgeCell p q = some k := by
  obtain ⟨i, j, h, ⟨rfl, rfl⟩ | ⟨rfl, rfl⟩⟩ := h <;> exact ⟨(i, j), h, rfl⟩

theorem edgeCell_ends {m n : Nat} {p q p' q' : Node m n} {k : Cell m n} (h : edgeCell p q = some k)
    (h' : edgeCell p' q' = some k) : (p' = p ∧ q' = q) ∨ (p' = q ∧ q' = p) := by
  cases p <;> cases q <;> cases p' <;> cases q' <;> simp [edgeCell] at h h' ⊢ <;> subst h <;> simp_all

/-- Alternating signs along the edges of a path. -/
def altMove {m n : Nat} : Int → List (Node m n) → Move m n
  | s, p :: q :: rest =>
    match edgeCell p q with
    | none => []
    | some k => (k, s) :: altMove (-s) (q :: rest)
  | _, _ => []

theorem altMove_key_mem {m n : Nat} {s : Int} {l : List (Node m n)} {k : Cell m n} {v : Int}
    (h : (k, v) ∈ altMove s l) {p q : Node m n} (hk : edgeCell p q = some k) : p ∈ l ∧ q ∈ l := by
  induction l generalizing s with
  | nil => simp [altMove] at h
  | cons a l ih =>
    cases l with
    | nil => simp [altMove] at h
    | cons b l =>
      simp only [altMove] at h
      cases e : edgeCell a b with
      | none => rw [e] at h; simp at h
      | some k' =>
        rw [e] at h
        simp only [List.mem_cons, Prod.mk.injEq] at h
        rcases h with ⟨rfl, _⟩ | h
        · rcases edgeCell_ends e hk with ⟨rfl, rfl⟩ | ⟨rfl, rfl⟩ <;> simp
        · obtain ⟨h1, h2⟩ := ih h
          exact ⟨List.mem_cons_of_mem _ h1, List.mem_cons_of_mem _ h2⟩

theorem altMove_keys_path {m n : Nat} {s : Int} {l : List (Node m n)} (hn : l.Nodup) :
    ((altMove s l).map Prod.fst).Nodup := by
  induction l generalizing s with
  | nil => simp [altMove]
  | cons a l ih =>
    cases l with
    | nil => simp [altMove]
    | cons b l =>
      simp only [altMove]
      cases e : edgeCell a b with
      | none => simp
      | some k =>
        simp only [List.map_cons, List.nodup_cons]
        have hn' := List.nodup_cons.mp hn
        refine ⟨?_, ih hn'.2⟩
        intro hmem
        simp only [List.mem_map, Prod.exists, exists_and_right, exists_eq_right] at hmem
        obtain ⟨v, hv⟩ := hmem
        exact hn'.1 (altMove_key_mem hv e).1

theorem altMove_keys_cycle {m n : Nat} {s : Int} {a : Node m n} {l : List (Node m n)} (hn : (a :: l).Nodup)
    (hl : 2 ≤ l.length) : ((altMove s (a :: l ++ [a])).map Prod.fst).Nodup := by
  obtain ⟨b, c, l, rfl⟩ : ∃ b c l', l = b :: c :: l' := by
    match l, hl with
    | b :: c :: l', _ => exact ⟨b, c, l', rfl⟩
  simp only [List.cons_append, altMove]
  cases e : edgeCell a b with
  | none => simp
  | some k =>
    simp only [List.map_cons, List.nodup_cons]
    have hn' := List.nodup_cons.mp hn
    have hrot : (b :: c :: (l ++ [a])).Nodup := by
      have : b :: c :: (l ++ [a]) = (b :: c :: l) ++ [a] := by simp
      rw [this, List.nodup_append]
      refine ⟨hn'.2, by simp, ?_⟩
      intro x hx y hy
      simp at hy; subst hy
      rintro rfl; exact hn'.1 hx
    refine ⟨?_, altMove_keys_path (l := b :: c :: (l ++ [a])) hrot⟩
    intro hmem
    simp only [List.mem_map, Prod.exists, exists_and_right, exists_eq_right] at hmem
    obtain ⟨v, hv⟩ := hmem
    cases e2 : edgeCell b c with
    | none => rw [e2] at hv; simp at hv
    | some k2 =>
      rw [e2] at hv
      simp only [List.mem_cons, Prod.mk.injEq] at hv
      rcases hv with ⟨rfl, _⟩ | hv
      · rcases edgeCell_ends e2 e with ⟨rfl, _⟩ | ⟨rfl, _⟩
        · exact hn'.1 (by simp)
        · exact hn'.1 (by simp)
      · have := (altMove_key_mem hv e).2
        exact (List.nodup_cons.mp hrot).1 this

theorem dictSet_fresh {m n : Nat} (mv : Move m n) (k : Cell m n) (v : Int) (h : k ∉ mv.map Prod.fst) :
    dictSet mv k v = mv ++ [(k, v)] := by
  induction mv with
  | nil => rfl
  | cons kv mv ih =>
    obtain ⟨k', v'⟩ := kv
    simp only [List.map_cons, List.mem_cons, not_or] at h
    simp [dictSet, h.1, ih h.2]

theorem cycleMoveFrom_eq {m n : Nat} {cells : List (Cell m n)} (l : List (Node m n)) :
    ∀ (s : Int) (acc : Move m n), List.IsChain (Adjacent cells) l →
      ((acc ++ altMove s l).map Prod.fst).Nodup → cycleMoveFrom s acc l = some (acc ++ altMove s l) := by
  induction l with
  | nil => intro s acc _ _; simp [cycleMoveFrom, altMove]
  | cons a l ih =>
    intro s acc hc hn
    cases l with
    | nil => simp [cycleMoveFrom, altMove]
    | cons b l =>
      rw [List.isChain_cons_cons] at hc
      obtain ⟨k, _, e⟩ := Adjacent.edge hc.1
      simp only [altMove, e] at hn
      simp only [cycleMoveFrom, altMove, e]
      have hfresh : k ∉ acc.map Prod.fst := by
        intro h
        rw [List.map_append, List.nodup_append] at hn
        exact hn.2.2 k h k (by simp) rfl
      rw [dictSet_fresh _ _ _ hfresh, ih _ _ hc.2]
      · simp
      · simpa using hn

theorem cycleMove_eq {m n : Nat} {cells : List (Cell m n)} {a : Node m n} {l : List (Node m n)}
    (h : SimpleCycle cells (a :: l)) : cycleMove (a :: l) = some (altMove 1 (a :: l ++ [a])) := by
  have hk := altMove_keys_cycle (s := 1) h.nodup (by have := h.long; simp at this; omega)
  rw [cycleMove, cycleMoveFrom_eq _ _ _ (h.closed a l rfl) (by simpa using hk)]
  simp

/-! ### sums -/

theorem moveAt_sum_mem {m n : Nat} (mv : Move m n) (hn : (mv.map Prod.fst).Nodup) (c : Cell m n) :
    moveAt mv c = (mv.map fun kv => if c = kv.1 then kv.2 else 0).sum := by
  induction mv with
  | nil => rfl
  | cons kv mv ih =>
    obtain ⟨k, v⟩ := kv
    simp only [List.map_cons, List.nodup_cons] at hn
    simp only [moveAt, List.map_cons, List.sum_cons]
    by_cases h : c = k
    · subst h
      have : moveAt mv c = 0 := moveAt_absent mv c hn.1
      rw [ih hn.2] at this
      simp [this]
    · simp [h, ih hn.2]

theorem moveAt_row_sum {m n : Nat} (mv : Move m n) (hn : (mv.map Prod.fst).Nodup) (i : Fin m) :
    ∑ j, moveAt mv (i, j) = (mv.map fun kv => if kv.1.1 = i then kv.2 else 0).sum := by
  simp only [moveAt_sum_mem mv hn]
  induction mv with
  | nil => simp
  | cons kv mv ih =>
    obtain ⟨⟨a, b⟩, v⟩ := kv
    simp only [List.map_cons, List.nodup_cons] at hn
    simp only [List.map_cons, List.sum_cons, Finset.sum_add_distrib, ih hn.2, Prod.mk.injEq]
    congr 1
    by_cases h : a = i
    · subst h; simp
    · simp [h, Ne.symm h]

theorem moveAt_col_sum {m n : Nat} (mv : Move m n) (hn : (mv.map Prod.fst).Nodup) (j : Fin n) :
    ∑ i, moveAt mv (i, j) = (mv.map fun kv => if kv.1.2 = j then kv.2 else 0).sum := by
  simp only [moveAt_sum_mem mv hn]
  induction mv with
  | nil => simp
  | cons kv mv ih =>
    obtain ⟨⟨a, b⟩, v⟩ := kv
    simp only [List.map_cons, List.nodup_cons] at hn
    simp only [List.map_cons, List.sum_cons, Finset.sum_add_distrib, ih hn.2, Prod.mk.injEq]
    congr 1
    by_cases h : b = j
    · subst h; simp
    · simp [h, Ne.symm h]

/-- Telescoping along a path: `g` counts how often an end node is the line of interest. -/
theorem altMove_telescope {m n : Nat} {cells : List (Cell m n)} (φ : Cell m n → Int) (g : Node m n → Int)
    (hg : ∀ p q k, edgeCell p q = some k → φ k = g p + g q) (l : List (Node m n)) :
    ∀ (s : Int) (p z : Node m n), List.IsChain (Adjacent cells) (p :: l) → (p :: l).getLast? = some z →
      ((altMove s (p :: l)).map fun kv => φ kv.1 * kv.2).sum = s * g p - s * nodeSign p * nodeSign z * g z := by
  induction l with
  | nil =>
    intro s p z _ hz
    simp at hz; subst hz
    have := nodeSign_sq p
    simp only [altMove, List.map_nil, List.sum_nil]
    rw [mul_assoc s, this]; ring
  | cons q l ih =>
    intro s p z hc hz
    rw [List.isChain_cons_cons] at hc
    obtain ⟨k, _, e⟩ := Adjacent.edge hc.1
    simp only [altMove, e, List.map_cons, List.sum_cons]
    rw [ih (-s) q z hc.2 (by simpa using hz), hg p q k e, Adjacent.sign hc.1]
    ring

theorem altMove_cycle_sum {m n : Nat} {cells : List (Cell m n)} (φ : Cell m n → Int) (g : Node m n → Int)
    (hg : ∀ p q k, edgeCell p q = some k → φ k = g p + g q) (s : Int) (a : Node m n) (l : List (Node m n))
    (h : List.IsChain (Adjacent cells) (a :: l ++ [a])) :
    ((altMove s (a :: l ++ [a])).map fun kv => φ kv.1 * kv.2).sum = 0 := by
  have := altMove_telescope φ g hg (l ++ [a]) s a a h (by rw [← List.cons_append, List.getLast?_concat])
  rw [List.cons_append, this, mul_assoc s, nodeSign_sq]; ring

theorem altMove_value {m n : Nat} {s : Int} {l : List (Node m n)} {k : Cell m n} {v : Int}
    (h : (k, v) ∈ altMove s l) : v = s ∨ v = -s := by
  induction l generalizing s with
  | nil => simp [altMove] at h
  | cons a l ih =>
    cases l with
    | nil => simp [altMove] at h
    | cons b l =>
      simp only [altMove] at h
      cases e : edgeCell a b with
      | none => rw [e] at h; simp at h
      | some k' =>
        rw [e] at h
        simp only [List.mem_cons, Prod.mk.injEq] at h
        rcases h with ⟨_, rfl⟩ | h
        · exact Or.inl rfl
        · rcases ih h with h | h
          · exact Or.inr h
          · left; omega

theorem altMove_get {m n : Nat} {cells : List (Cell m n)} (l : List (Node m n)) :
    ∀ s, List.IsChain (Adjacent cells) l → (altMove s l).length = l.length - 1 ∧
      ∀ k c v, (altMove s l)[k]? = some (c, v) → c ∈ cells ∧ v = s * (-1) ^ k ∧
        ∃ p q, l[k]? = some p ∧ l[k + 1]? = some q ∧ edgeCell p q = some c := by
  induction l with
  | nil => intro s _; simp [altMove]
  | cons a l ih =>
    intro s hc
    cases l with
    | nil => simp [altMove]
    | cons b l =>
      rw [List.isChain_cons_cons] at hc
      obtain ⟨c0, hc0, e⟩ := Adjacent.edge hc.1
      obtain ⟨h1, h2⟩ := ih (-s) hc.2
      simp only [altMove, e]
      refine ⟨by simp [h1], ?_⟩
      intro k c v hk
      cases k with
      | zero =>
        simp only [List.getElem?_cons_zero, Option.some.injEq, Prod.mk.injEq] at hk
        obtain ⟨rfl, rfl⟩ := hk
        exact ⟨hc0, by simp, a, b, by simp, by simp, e⟩
      | succ k =>
        simp only [List.getElem?_cons_succ] at hk
        obtain ⟨h3, h4, p, q, h5, h6, h7⟩ := h2 k c v hk
        refine ⟨h3, by rw [h4, pow_succ]; ring, p, q, by simpa using h5, by simpa using h6, h7⟩

theorem altMove_mem_get {m n : Nat} {cells : List (Cell m n)} {s : Int} {l : List (Node m n)}
    (h : List.IsChain (Adjacent cells) l) {k : Cell m n} {v : Int} (hk : (k, v) ∈ altMove s l) : k ∈ cells := by
  obtain ⟨idx, hidx⟩ := List.mem_iff_getElem?.mp hk
  exact ((altMove_get l s h).2 idx k v hidx).1

theorem moveAt_mem {m n : Nat} {mv : Move m n} {c : Cell m n} (h : c ∈ mv.map Prod.fst) :
    (c, moveAt mv c) ∈ mv := by
  induction mv with
  | nil => simp at h
  | cons kv mv ih =>
    obtain ⟨k, v⟩ := kv
    simp only [List.map_cons, List.mem_cons] at h
    by_cases e : c = k
    · subst e; simp [moveAt]
    · simp only [moveAt, e, if_false]
      exact List.mem_cons_of_mem _ (ih (h.resolve_left e))

/-- Everything the property theorems need about the move of a simple cycle. -/
theorem cycleMove_effect {m n : Nat} {fixed : List (Cell m n)} {c : List (Node m n)}
    (h : SimpleCycle (freeCells fixed) c) :
    ∃ mv, cycleMove c = some mv ∧ (mv.map Prod.fst).Nodup ∧
      (∀ i, ∑ j, moveAt mv (i, j) = 0) ∧ (∀ j, ∑ i, moveAt mv (i, j) = 0) ∧
      (∀ k v, (k, v) ∈ mv → k ∉ fixed ∧ (v = 1 ∨ v = -1)) := by
  obtain ⟨a, l, rfl⟩ : ∃ a l, c = a :: l := by
    cases c with
    | nil => exact absurd h.long (by simp)
    | cons a l => exact ⟨a, l, rfl⟩
  have hch := h.closed a l rfl
  have hk := altMove_keys_cycle (s := 1) h.nodup (by have := h.long; simp at this; omega)
  refine ⟨_, cycleMove_eq h, hk, ?_, ?_, ?_⟩
  · intro i
    have hz := altMove_cycle_sum (fun k : Cell m n => if k.1 = i then (1 : Int) else 0)
      (fun p => match p with | .o i' => if i' = i then 1 else 0 | .d _ => 0) (by
        intro p q k e
        cases p <;> cases q <;> simp [edgeCell] at e <;> subst e <;> simp) 1 a l hch
    rw [moveAt_row_sum _ hk]
    simpa using hz
  · intro j
    have hz := altMove_cycle_sum (fun k : Cell m n => if k.2 = j then (1 : Int) else 0)
      (fun p => match p with | .d j' => if j' = j then 1 else 0 | .o _ => 0) (by
        intro p q k e
        cases p <;> cases q <;> simp [edgeCell] at e <;> subst e <;> simp) 1 a l hch
    rw [moveAt_col_sum _ hk]
    simpa using hz
  · intro k v hkv
    refine ⟨(mem_freeCells fixed k).mp (altMove_mem_get hch hkv), altMove_value hkv⟩

theorem mapM_cycleMove {m n : Nat} {fixed : List (Cell m n)} (cs : List (List (Node m n)))
    (h : ∀ c ∈ cs, SimpleCycle (freeCells fixed) c) :
    ∃ basis, cs.mapM cycleMove = some basis ∧
      (∀ mv ∈ basis, ∃ c ∈ cs, cycleMove c = some mv) ∧ (∀ c ∈ cs, ∃ mv ∈ basis, cycleMove c = some mv) ∧
      basis.length = cs.length := by
  induction cs with
  | nil => exact ⟨[], rfl, by simp, by simp, rfl⟩
  | cons c cs ih =>
    obtain ⟨basis, hb, h1, h2, h3⟩ := ih (fun c hc => h c (by simp [hc]))
    obtain ⟨mv, hmv, _⟩ := cycleMove_effect (h c (by simp))
    refine ⟨mv :: basis, ?_, ?_, ?_, by simp [h3]⟩
    · simp [List.mapM_cons, hmv, hb]
    · intro x hx
      rcases List.mem_cons.mp hx with rfl | hx
      · exact ⟨c, by simp, hmv⟩
      · obtain ⟨c', hc', e⟩ := h1 x hx
        exact ⟨c', by simp [hc'], e⟩
    · intro x hx
      rcases List.mem_cons.mp hx with rfl | hx
      · exact ⟨mv, by simp, hmv⟩
      · obtain ⟨mv', hm', e⟩ := h2 x hx
        exact ⟨mv', by simp [hm'], e⟩

end GeNSIT
