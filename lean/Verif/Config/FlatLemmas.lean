import Verif.Config.DeepLemmas

/-! # `deep_flatten`: helper lemmas -/

set_option linter.unusedSimpArgs false

namespace GeNSIT

open Spec

theorem foldl_setEntry_lookup (items : List (Key × Cfg)) (k : Key) : ∀ (acc : List (Key × Cfg)),
    (items.foldl (fun (acc : List (Key × Cfg)) (e : Key × Cfg) => setEntry acc e.1 e.2) acc).lookup k =
      (items.reverse.lookup k).or (acc.lookup k) := by
  induction items with
  | nil => intro acc; simp
  | cons e items ih =>
    intro acc
    obtain ⟨k0, v0⟩ := e
    simp only [List.foldl_cons, ih, List.reverse_cons, List.lookup_append]
    by_cases h : k = k0
    · subst h
      rw [lookup_setEntry_self]
      cases hl : List.lookup k items.reverse <;> simp [List.lookup]
    · rw [lookup_setEntry_ne acc v0 h]
      have : (k == k0) = false := by simpa using h
      cases hl : List.lookup k items.reverse <;> simp [List.lookup, this]

theorem toDict_lookup (items : List (Key × Cfg)) (k : Key) : (toDict items).lookup k = items.reverse.lookup k := by
  unfold toDict
  rw [foldl_setEntry_lookup]
  simp [List.lookup]

theorem setEntry_nodup {es : List (Key × Cfg)} (h : (es.map Prod.fst).Nodup) (k : Key) (v : Cfg) :
    ((setEntry es k v).map Prod.fst).Nodup := by
  rw [setEntry_keys]
  by_cases hk : k ∈ es.map Prod.fst
  · simp only [hk, if_true, List.append_nil]; exact h
  · simp only [hk, if_false]
    rw [List.nodup_append]
    exact ⟨h, by simp, by rintro a ha b hb rfl; simp at hb; exact hk (hb ▸ ha)⟩

theorem toDict_nodup (items : List (Key × Cfg)) : ((toDict items).map Prod.fst).Nodup := by
  have : ∀ (acc : List (Key × Cfg)), (acc.map Prod.fst).Nodup →
      ((items.foldl (fun (acc : List (Key × Cfg)) (e : Key × Cfg) => setEntry acc e.1 e.2) acc).map Prod.fst).Nodup := by
    induction items with
    | nil => intro acc h; exact h
    | cons e items ih => intro acc h; exact ih _ (setEntry_nodup h _ _)
  exact this [] (by simp)

theorem toDict_mem {items : List (Key × Cfg)} {e : Key × Cfg} (h : e ∈ toDict items) : e ∈ items := by
  obtain ⟨k, v⟩ := e
  have h1 := lookup_of_mem (toDict_nodup items) h
  rw [toDict_lookup] at h1
  simpa using lookup_mem h1

theorem toDict_key {items : List (Key × Cfg)} {k : Key} : k ∈ (toDict items).map Prod.fst ↔ k ∈ items.map Prod.fst := by
  rw [← lookup_isSome_iff, toDict_lookup, lookup_isSome_iff]
  simp

/-- A non-dictionary value reached through dictionaries, with its last key. -/
def FlatLeaf (c : Cfg) (k : Key) (x : Cfg) : Prop := ∃ p, LeafAt c (p ++ [k]) x

theorem flatLeaf_child {es : List (Key × Cfg)} (hw : WellFormed (.node false es)) (k : Key) (x : Cfg) :
    FlatLeaf (.node false es) k x ↔
      ∃ k' v, (k', v) ∈ es ∧ ((v.isDict = false ∧ k' = k ∧ v = x) ∨ (v.isDict = true ∧ FlatLeaf v k x)) := by
  constructor
  · rintro ⟨p, h1, h2, h3⟩
    cases p with
    | nil =>
      simp only [List.nil_append, readAt] at h1
      cases hl : es.lookup k with
      | none => rw [hl] at h1; cases h1
      | some v =>
        rw [hl] at h1
        simp only [readAt_nil, Option.some.injEq] at h1
        subst h1
        exact ⟨k, v, lookup_mem hl, Or.inl ⟨h2, rfl, rfl⟩⟩
    | cons a p =>
      simp only [List.cons_append, readAt] at h1
      cases hl : es.lookup a with
      | none => rw [hl] at h1; cases h1
      | some v =>
        rw [hl] at h1
        simp only at h1
        refine ⟨a, v, lookup_mem hl, Or.inr ⟨?_, p, h1, h2, ?_⟩⟩
        · obtain ⟨es', he⟩ := h3 [a] (by simp [List.cons_prefix_cons]) (by simp)
          simp only [readAt, hl, readAt_nil, Option.some.injEq] at he
          subst he; rfl
        · intro q hq hne
          obtain ⟨es', he⟩ := h3 (a :: q) ((List.prefix_cons_inj a).mpr hq) (by simpa using hne)
          simp only [readAt, hl] at he
          exact ⟨es', he⟩
  · rintro ⟨k', v, hm, ⟨hv, rfl, rfl⟩ | ⟨hv, p, h1, h2, h3⟩⟩
    · have hl := (wf_child hw hm).1
      refine ⟨[], by simp [readAt, hl, readAt_nil], hv, ?_⟩
      intro q hq hne
      cases q with
      | nil => exact ⟨es, rfl⟩
      | cons a q =>
        simp only [List.nil_append, List.cons_prefix_cons, List.prefix_nil] at hq
        exact absurd (by simp [hq.1, hq.2]) hne
    · have hl := (wf_child hw hm).1
      refine ⟨k' :: p, by simp only [List.cons_append, readAt, hl]; exact h1, h2, ?_⟩
      intro q hq hne
      cases q with
      | nil => exact ⟨es, rfl⟩
      | cons a q =>
        simp only [List.cons_append, List.cons_prefix_cons] at hq
        obtain ⟨rfl, hq⟩ := hq
        simp only [readAt, hl]
        exact h3 q hq (by rintro rfl; exact hne rfl)

mutual
theorem flatten_sound : ∀ (c : Cfg), WellFormed c → ∀ k x, (k, x) ∈ deepFlatten c → FlatLeaf c k x
  | .leaf _, _, k, x, h => by simp [deepFlatten] at h
  | .node true _, _, k, x, h => by simp [deepFlatten] at h
  | .node false es, hw, k, x, h => by
    rw [flatLeaf_child hw]
    simp only [deepFlatten] at h
    exact flatItems_sound es (fun e he => (wf_child hw he).2) k x (toDict_mem h)
theorem flatItems_sound : ∀ (es : List (Key × Cfg)), (∀ e ∈ es, WellFormed e.2) → ∀ k x, (k, x) ∈ flatItems es →
    ∃ k' v, (k', v) ∈ es ∧ ((v.isDict = false ∧ k' = k ∧ v = x) ∨ (v.isDict = true ∧ FlatLeaf v k x))
  | [], _, k, x, h => by simp [flatItems] at h
  | e :: rest, hw, k, x, h => by
    simp only [flatItems, List.mem_append] at h
    rcases h with h | h
    · exact ⟨e.1, e.2, by simp, flatItem_sound e (hw e (by simp)) k x h⟩
    · obtain ⟨k', v, hm, h'⟩ := flatItems_sound rest (fun e' he' => hw e' (by simp [he'])) k x h
      exact ⟨k', v, by simp [hm], h'⟩
theorem flatItem_sound : ∀ (e : Key × Cfg), WellFormed e.2 → ∀ k x, (k, x) ∈ flatItem e →
    ((e.2.isDict = false ∧ e.1 = k ∧ e.2 = x) ∨ (e.2.isDict = true ∧ FlatLeaf e.2 k x))
  | (k0, v), hw, k, x, h => by
    simp only [flatItem] at h
    cases hv : v.isDict with
    | true =>
      simp only [hv, if_true] at h
      exact Or.inr ⟨rfl, flatten_sound v hw k x h⟩
    | false =>
      simp only [hv, Bool.false_eq_true, if_false, List.mem_singleton, Prod.mk.injEq] at h
      exact Or.inl ⟨rfl, h.1.symm, h.2.symm⟩
end

mutual
theorem flatten_complete : ∀ (c : Cfg), WellFormed c → ∀ k x, c.isDict = true → FlatLeaf c k x →
    k ∈ (deepFlatten c).map Prod.fst
  | .leaf _, _, k, x, h, _ => by simp [Cfg.isDict] at h
  | .node true _, _, k, x, h, _ => by simp [Cfg.isDict] at h
  | .node false es, hw, k, x, _, h => by
    rw [flatLeaf_child hw] at h
    simp only [deepFlatten]
    rw [toDict_key]
    exact flatItems_complete es (fun e he => (wf_child hw he).2) k x h
theorem flatItems_complete : ∀ (es : List (Key × Cfg)), (∀ e ∈ es, WellFormed e.2) → ∀ k x,
    (∃ k' v, (k', v) ∈ es ∧ ((v.isDict = false ∧ k' = k ∧ v = x) ∨ (v.isDict = true ∧ FlatLeaf v k x))) →
    k ∈ (flatItems es).map Prod.fst
  | [], _, k, x, h => by simp at h
  | e :: rest, hw, k, x, h => by
    simp only [flatItems, List.map_append, List.mem_append]
    obtain ⟨k', v, hm, h'⟩ := h
    rcases List.mem_cons.mp hm with h0 | hm
    · left
      refine flatItem_complete e (hw e (by simp)) k x ?_
      rw [← h0]; exact h'
    · right; exact flatItems_complete rest (fun e' he' => hw e' (by simp [he'])) k x ⟨k', v, hm, h'⟩
theorem flatItem_complete : ∀ (e : Key × Cfg), WellFormed e.2 → ∀ k x,
    ((e.2.isDict = false ∧ e.1 = k ∧ e.2 = x) ∨ (e.2.isDict = true ∧ FlatLeaf e.2 k x)) →
    k ∈ (flatItem e).map Prod.fst
  | (k0, v), hw, k, x, h => by
    simp only [flatItem]
    rcases h with ⟨h1, h2, h3⟩ | ⟨h1, h2⟩
    · simp only at h1 h2; simp [h1, h2]
    · simp only at h1 h2
      simp only [h1, if_true]
      exact flatten_complete v hw k x h1 h2
end

end GeNSIT
