import Verif.Sweep.Spec
import Mathlib.Data.List.Forall2
import Mathlib.Data.List.NodupEquivFin
import Mathlib.Algebra.BigOperators.Group.List.Basic

/-! # Sweeps: helper lemmas -/

set_option linter.unusedSimpArgs false

namespace GeNSIT

open Spec

theorem mem_product {α : Type} (ls : List (List α)) : ∀ r, r ∈ product ls ↔ List.Forall₂ (· ∈ ·) r ls := by
  induction ls with
  | nil => intro r; simp [product]
  | cons l ls ih =>
    intro r
    simp only [product, List.mem_flatMap, List.mem_map]
    constructor
    · rintro ⟨x, hx, r', hr', rfl⟩
      exact List.Forall₂.cons hx ((ih r').mp hr')
    · intro h
      cases h with
      | cons h1 h2 => exact ⟨_, h1, _, (ih _).mpr h2, rfl⟩

theorem length_product {α : Type} (ls : List (List α)) : (product ls).length = (ls.map List.length).prod := by
  induction ls with
  | nil => simp [product]
  | cons l ls ih => simp [product, List.length_flatMap, ih, List.map_const', List.sum_replicate]

theorem expandTuple_append {V : Type} (a b : List (PVal V)) : expandTuple (a ++ b) = expandTuple a ++ expandTuple b := by
  induction a with
  | nil => simp [expandTuple]
  | cons x a ih => simp [expandTuple, ih]

theorem expandTuple_items {V : Type} (a : List V) : expandTuple (a.map PVal.item) = a := by
  induction a with
  | nil => simp [expandTuple]
  | cons x a ih => simp [expandTuple, ih, PVal.expand]

theorem expandTuple_tups {V : Type} (rows : List (List V)) :
    expandTuple (rows.map fun row => PVal.tup (row.map PVal.item)) = rows.flatten := by
  induction rows with
  | nil => simp [expandTuple]
  | cons x a ih => simp [expandTuple, ih, PVal.expand, expandTuple_items]

theorem mem_zipRows {V : Type} (lists : List (List V)) : ∀ r, r ∈ zipRows lists ↔ ∃ i, RowAt lists i r := by
  induction lists with
  | nil => intro r; simp [zipRows, RowAt]
  | cons l ls ih =>
    intro r
    cases ls with
    | nil =>
      simp only [zipRows, List.mem_map, RowAt]
      constructor
      · rintro ⟨x, hx, rfl⟩
        obtain ⟨i, hi, rfl⟩ := List.getElem_of_mem hx
        exact ⟨i, by simp, by simp [hi]⟩
      · rintro ⟨i, _, h⟩
        cases r with
        | nil => simp at h
        | cons x r =>
          simp only [List.map_cons, List.map_nil, List.cons.injEq] at h
          obtain ⟨h1, h2⟩ := h
          have : r = [] := by simpa using h2.symm
          subst this
          exact ⟨x, List.mem_of_getElem? h1, rfl⟩
    | cons l' ls =>
      rw [zipRows]
      constructor
      · intro h
        obtain ⟨i, hi, rfl⟩ := List.getElem_of_mem h
        simp only [List.getElem_zipWith]
        simp only [List.length_zipWith] at hi
        -- the i-th row of the tail
        have hkey : ∀ (ls : List (List V)) (i : Nat) (h : i < (zipRows ls).length), RowAt ls i (zipRows ls)[i] := by
          intro ls
          induction ls with
          | nil => intro i h; simp [zipRows] at h
          | cons l ls ih =>
            intro i h
            cases ls with
            | nil =>
              simp only [zipRows, List.length_map] at h
              simp [zipRows, RowAt, h]
            | cons l' ls =>
              simp only [zipRows, List.length_zipWith, lt_min_iff] at h
              refine ⟨by simp, ?_⟩
              simp only [zipRows, List.getElem_zipWith, List.map_cons]
              have := (ih i h.2).2
              simp only [List.map_cons] at this
              rw [← this]
              simp [h.1]
        have h2 := (hkey (l' :: ls) i (by omega)).2
        refine ⟨i, by simp, ?_⟩
        rw [List.map_cons, List.map_cons (f := some), ← h2]
        have : i < l.length := by omega
        simp [this]
      · rintro ⟨i, _, h⟩
        have hkey : ∀ (ls : List (List V)) (i : Nat) (r : List V), RowAt ls i r → (zipRows ls)[i]? = some r := by
          intro ls
          induction ls with
          | nil => rintro i r ⟨h, _⟩; exact absurd rfl h
          | cons l ls ih =>
            rintro i r ⟨_, h⟩
            cases r with
            | nil => simp at h
            | cons x r =>
              simp only [List.map_cons, List.cons.injEq] at h
              cases ls with
              | nil =>
                have : r = [] := by simpa using h.2.symm
                subst this
                simp [zipRows, h.1]
              | cons l' ls =>
                have := ih i r ⟨by simp, h.2⟩
                rw [zipRows, List.getElem?_zipWith, h.1, this]
        have := hkey (l :: l' :: ls) i r ⟨by simp, h⟩
        rw [zipRows] at this
        exact List.mem_of_getElem? this

theorem length_zipRows {V : Type} (lists : List (List V)) (n : Nat) (h : SameLength lists n) :
    (zipRows lists).length = n := by
  induction lists with
  | nil => exact absurd rfl h.1
  | cons l ls ih =>
    cases ls with
    | nil => simp [zipRows, h.2 l (by simp)]
    | cons l' ls =>
      have h1 := ih ⟨by simp, fun x hx => h.2 x (by simp only [List.mem_cons] at hx ⊢; exact Or.inr hx)⟩
      rw [zipRows, List.length_zipWith, h1, h.2 l (by simp)]
      simp

/-! ### the kept rows -/

theorem kept_index {V : Type} (str : V → List Char) (rows : List (List V)) {e : List V × Nat} (he : e ∈ rows.zipIdx)
    (hk : e.2 ∈ (rows.map (rowString str)).map fun s => (rows.map (rowString str)).idxOf s) :
    (rows.map (rowString str)).idxOf (rowString str e.1) = e.2 := by
  obtain ⟨s, hs, hi⟩ := List.mem_map.mp hk
  have hlt := List.idxOf_lt_length_of_mem hs
  have hget : (rows.map (rowString str))[e.2]'(hi ▸ hlt) = s := by
    have := List.getElem_idxOf hlt
    simp only [hi] at this
    exact this
  have hrow : (rows.map (rowString str))[e.2]? = some (rowString str e.1) := by
    have := List.mem_zipIdx_iff_getElem?.mp he
    simp [this]
  have hlt' : e.2 < (rows.map (rowString str)).length := hi ▸ hlt
  rw [List.getElem?_eq_getElem hlt', hget, Option.some.injEq] at hrow
  rw [← hrow, hi]

theorem uniqueRows_sublist {V : Type} (str : V → List Char) (rows : List (List V)) :
    (uniqueRows str rows).Sublist rows := by
  unfold uniqueRows
  have h1 := (List.filter_sublist (p := fun (e : List V × Nat) =>
    decide (e.2 ∈ (rows.map (rowString str)).map fun s => (rows.map (rowString str)).idxOf s))
      (l := rows.zipIdx)).map Prod.fst
  have h2 : rows.zipIdx.map Prod.fst = rows := by simp
  rw [h2] at h1
  exact h1

theorem uniqueRows_strings_nodup {V : Type} (str : V → List Char) (rows : List (List V)) :
    ((uniqueRows str rows).map (rowString str)).Nodup := by
  unfold uniqueRows
  simp only
  rw [List.map_map]
  refine List.Nodup.of_map (f := fun s => (rows.map (rowString str)).idxOf s) ?_
  rw [List.map_map]
  have hnd : ((rows.zipIdx.filter fun (e : List V × Nat) =>
      decide (e.2 ∈ (rows.map (rowString str)).map fun s => (rows.map (rowString str)).idxOf s)).map Prod.snd).Nodup := by
    have h1 := (List.filter_sublist (p := fun (e : List V × Nat) =>
      decide (e.2 ∈ (rows.map (rowString str)).map fun s => (rows.map (rowString str)).idxOf s))
        (l := rows.zipIdx)).map Prod.snd
    refine h1.nodup ?_
    have : rows.zipIdx.map Prod.snd = List.range' 0 rows.length := by simp
    rw [this]
    exact List.nodup_range'
  convert hnd using 1
  apply List.map_congr_left
  intro e he
  obtain ⟨h1, h2⟩ := List.mem_filter.mp he
  exact kept_index str rows h1 (of_decide_eq_true h2)

theorem uniqueRows_represent {V : Type} (str : V → List Char) (rows : List (List V)) {r : List V} (hr : r ∈ rows) :
    ∃ r' ∈ uniqueRows str rows, rowString str r' = rowString str r := by
  have hs : rowString str r ∈ rows.map (rowString str) := List.mem_map.mpr ⟨r, hr, rfl⟩
  have hlt := List.idxOf_lt_length_of_mem hs
  have hget := List.getElem_idxOf hlt
  have hlt2 : (rows.map (rowString str)).idxOf (rowString str r) < rows.length := by simpa using hlt
  refine ⟨rows[(rows.map (rowString str)).idxOf (rowString str r)], ?_, by rw [List.getElem_map] at hget; exact hget⟩
  unfold uniqueRows
  refine List.mem_map.mpr ⟨(rows[(rows.map (rowString str)).idxOf (rowString str r)],
    (rows.map (rowString str)).idxOf (rowString str r)), List.mem_filter.mpr ⟨?_, ?_⟩, rfl⟩
  · rw [List.mem_zipIdx_iff_getElem?]; simp
  · exact decide_eq_true (List.mem_map.mpr ⟨_, hs, rfl⟩)

theorem uniqueRows_all {V : Type} (str : V → List Char) (rows : List (List V))
    (h : (rows.map (rowString str)).Nodup) : uniqueRows str rows = rows := by
  have hsub := uniqueRows_sublist str rows
  refine hsub.eq_of_length_le ?_
  have : ∀ r ∈ rows, r ∈ uniqueRows str rows := by
    intro r hr
    obtain ⟨r', hr', he⟩ := uniqueRows_represent str rows hr
    have := List.inj_on_of_nodup_map h (hsub.subset hr') hr he
    exact this ▸ hr'
  exact (List.subperm_of_subset h.of_map this).length_le

/-! ### the configurations -/

theorem sweepConfigs_eq {V : Type} (str : V → List Char) (iso : List (List V)) (coup : List (List (List V)))
    (hne : iso ≠ [] ∨ coup ≠ []) :
    ∃ expanded, (∀ cs, sweepConfigs str (iso.map fun l => l.map PVal.item) coup = some cs ↔
        (cs = expanded ∧ (expanded.map (rowString str)).Nodup)) ∧
      (∀ c, c ∈ expanded ↔ ∃ xs rows, List.Forall₂ (· ∈ ·) xs iso ∧
        List.Forall₂ (fun r lists => r ∈ uniqueRows str (zipRows lists)) rows coup ∧ c = xs ++ rows.flatten) ∧
      expanded.length = (iso.map List.length).prod * (coup.map fun lists => (uniqueRows str (zipRows lists)).length).prod := by
  have hconf : ∀ (x : List (List V)), (if coup.isEmpty then (if (iso.map fun l => l.map (PVal.item (V := V))).isEmpty then [] else
      product (iso.map fun l => l.map PVal.item)) else product ((iso.map fun l => l.map PVal.item) ++
        coup.map fun lists => (uniqueRows str (zipRows lists)).map fun row => PVal.tup (row.map PVal.item))) =
      product ((iso.map fun l => l.map (PVal.item (V := V))) ++
        coup.map fun lists => (uniqueRows str (zipRows lists)).map fun row => PVal.tup (row.map PVal.item)) := by
    intro _
    cases coup with
    | nil =>
      cases iso with
      | nil => simp at hne
      | cons a b => simp
    | cons a b => simp
  refine ⟨(product ((iso.map fun l => l.map (PVal.item (V := V))) ++
        coup.map fun lists => (uniqueRows str (zipRows lists)).map fun row => PVal.tup (row.map PVal.item))).map expandTuple,
      ?_, ?_, ?_⟩
  · intro cs
    unfold sweepConfigs
    simp only
    rw [hconf []]
    split
    · rename_i h
      simp only [Option.some.injEq]
      exact ⟨fun e => ⟨e.symm, h⟩, fun e => e.1.symm⟩
    · rename_i h
      simp only [reduceCtorEq, false_iff, not_and]
      exact fun _ => h
  · intro c
    simp only [List.mem_map, mem_product]
    constructor
    · rintro ⟨t, ht, rfl⟩
      obtain ⟨n, hn⟩ : ∃ n, n = iso.length := ⟨_, rfl⟩
      have htk := List.forall₂_take_append t (iso.map fun l => l.map (PVal.item (V := V))) _ ht
      have htd := List.forall₂_drop_append t (iso.map fun l => l.map (PVal.item (V := V))) _ ht
      simp only [List.length_map] at htk htd
      have key1 : ∀ (a : List (PVal V)) (ls : List (List V)), List.Forall₂ (· ∈ ·) a (ls.map fun l => l.map PVal.item) →
          ∃ xs, a = xs.map PVal.item ∧ List.Forall₂ (· ∈ ·) xs ls := by
        intro a ls
        induction ls generalizing a with
        | nil => intro h; simp at h; exact ⟨[], by simp [h], List.Forall₂.nil⟩
        | cons l ls ih =>
          intro h
          cases h with
          | cons h1 h2 =>
            obtain ⟨xs, rfl, h3⟩ := ih _ h2
            obtain ⟨x, hx, rfl⟩ := List.mem_map.mp h1
            exact ⟨x :: xs, rfl, List.Forall₂.cons hx h3⟩
      have key2 : ∀ (a : List (PVal V)) (ls : List (List (List V))), List.Forall₂ (· ∈ ·) a
          (ls.map fun lists => (uniqueRows str (zipRows lists)).map fun row => PVal.tup (row.map PVal.item)) →
          ∃ rows, a = rows.map (fun row => PVal.tup (row.map PVal.item)) ∧
            List.Forall₂ (fun r lists => r ∈ uniqueRows str (zipRows lists)) rows ls := by
        intro a ls
        induction ls generalizing a with
        | nil => intro h; simp at h; exact ⟨[], by simp [h], List.Forall₂.nil⟩
        | cons l ls ih =>
          intro h
          cases h with
          | cons h1 h2 =>
            obtain ⟨xs, rfl, h3⟩ := ih _ h2
            obtain ⟨x, hx, rfl⟩ := List.mem_map.mp h1
            exact ⟨x :: xs, rfl, List.Forall₂.cons hx h3⟩
      obtain ⟨xs, hx1, hx2⟩ := key1 _ _ htk
      obtain ⟨rows, hr1, hr2⟩ := key2 _ _ htd
      refine ⟨xs, rows, hx2, hr2, ?_⟩
      rw [← List.take_append_drop iso.length t, hx1, hr1, expandTuple_append, expandTuple_items, expandTuple_tups]
    · rintro ⟨xs, rows, h1, h2, rfl⟩
      refine ⟨xs.map PVal.item ++ rows.map (fun row => PVal.tup (row.map PVal.item)), ?_, ?_⟩
      · refine List.rel_append ?_ ?_
        · rw [List.forall₂_map_left_iff, List.forall₂_map_right_iff]
          exact h1.imp fun a b hab => List.mem_map.mpr ⟨a, hab, rfl⟩
        · rw [List.forall₂_map_left_iff, List.forall₂_map_right_iff]
          exact h2.imp fun a b hab => List.mem_map.mpr ⟨a, hab, rfl⟩
      · rw [expandTuple_append, expandTuple_items, expandTuple_tups]
  · simp only [List.length_map, length_product, List.map_append, List.prod_append, List.map_map]
    congr 2 <;> (apply List.map_congr_left; intro l _; simp)

end GeNSIT
