import Verif.Config.Lemmas

/-! # Searching and deleting in nested settings: helper lemmas -/

set_option linter.unusedSimpArgs false

namespace GeNSIT

open Spec

mutual
/-- The true key paths ending in `key`, in search order. -/
def pathsTo (key : Key) : Cfg → List (List Key)
  | .leaf _ => []
  | .node _ es => pathsToEntries key es
/-- Over the items. -/
def pathsToEntries (key : Key) : List (Key × Cfg) → List (List Key)
  | [] => []
  | e :: rest => pathsToEntry key e ++ pathsToEntries key rest
/-- One item. -/
def pathsToEntry (key : Key) : Key × Cfg → List (List Key)
  | (k, v) => (if k = key then [[k]] else []) ++ (pathsTo key v).map (k :: ·)
end

/-- `L` lists the paths of `T` below `cur`, each up to the order of its components. -/
def UpToOrder (cur : List Key) (L T : List (List Key)) : Prop := List.Forall₂ List.Perm L (T.map (cur ++ ·))

theorem UpToOrder.congr {cur cur' : List Key} (h : cur.Perm cur') {L T : List (List Key)} (hl : UpToOrder cur L T) :
    UpToOrder cur' L T := by
  unfold UpToOrder at *
  induction T generalizing L with
  | nil => simpa using hl
  | cons t T ih =>
    cases hl with
    | cons h1 h2 => exact List.Forall₂.cons (h1.trans (h.append_right t)) (ih h2)

theorem UpToOrder.append {cur : List Key} {L L' T T' : List (List Key)} (h : UpToOrder cur L T)
    (h' : UpToOrder cur L' T') : UpToOrder cur (L ++ L') (T ++ T') := by
  unfold UpToOrder at *
  rw [List.map_append]
  exact List.rel_append h h'

theorem erase_snoc_perm {k : Key} {cur l : List Key} (h : l.Perm (cur ++ [k])) : (l.erase k).Perm cur := by
  refine (h.erase k).trans ?_
  have h2 : (cur ++ [k]).Perm (k :: cur) := by simp
  have := h2.erase k
  simpa using this

mutual
theorem pathFind_perm (key : Key) : ∀ (c : Cfg) (cur : List Key) (all : List (List Key)),
    (pathFind key c cur all).1.Perm cur ∧ ∃ L, (pathFind key c cur all).2 = all ++ L ∧ UpToOrder cur L (pathsTo key c)
  | .leaf _, cur, all => by
    refine ⟨by simp [pathFind], [], by simp [pathFind], ?_⟩
    simp [UpToOrder, pathsTo]
  | .node _ es, cur, all => by
    simp only [pathFind, pathsTo]; exact pathFindEntries_perm key es cur all
theorem pathFindEntries_perm (key : Key) : ∀ (es : List (Key × Cfg)) (cur : List Key) (all : List (List Key)),
    (pathFindEntries key es cur all).1.Perm cur ∧
      ∃ L, (pathFindEntries key es cur all).2 = all ++ L ∧ UpToOrder cur L (pathsToEntries key es)
  | [], cur, all => by
    refine ⟨by simp [pathFindEntries], [], by simp [pathFindEntries], ?_⟩
    simp [UpToOrder, pathsToEntries]
  | e :: rest, cur, all => by
    obtain ⟨h1, L1, h2, h3⟩ := pathFindEntry_perm key e cur all
    obtain ⟨h4, L2, h5, h6⟩ := pathFindEntries_perm key rest (pathFindEntry key e cur all).1 (pathFindEntry key e cur all).2
    refine ⟨?_, L1 ++ L2, ?_, ?_⟩
    · simp only [pathFindEntries]; exact h4.trans h1
    · simp only [pathFindEntries]; rw [h5, h2, List.append_assoc]
    · simp only [pathsToEntries]; exact UpToOrder.append h3 (UpToOrder.congr h1 h6)
theorem pathFindEntry_perm (key : Key) : ∀ (e : Key × Cfg) (cur : List Key) (all : List (List Key)),
    (pathFindEntry key e cur all).1.Perm cur ∧
      ∃ L, (pathFindEntry key e cur all).2 = all ++ L ∧ UpToOrder cur L (pathsToEntry key e)
  | (k, v), cur, all => by
    obtain ⟨h1, L, h2, h3⟩ := pathFind_perm key v (cur ++ [k]) (if k = key then all ++ [cur ++ [k]] else all)
    refine ⟨?_, (if k = key then [cur ++ [k]] else []) ++ L, ?_, ?_⟩
    · simp only [pathFindEntry]; exact erase_snoc_perm h1
    · simp only [pathFindEntry]; rw [h2]; split <;> simp
    · simp only [pathsToEntry]
      apply UpToOrder.append
      · unfold UpToOrder; split <;> simp
      · unfold UpToOrder at h3 ⊢
        rw [List.map_map]
        have : ((fun x => cur ++ x) ∘ fun x => k :: x) = fun x => cur ++ [k] ++ x := by
          funext x; simp
        rw [this]; exact h3
end

theorem upToOrder_length {cur : List Key} {L T : List (List Key)} (h : UpToOrder cur L T) : L.length = T.length := by
  have := List.Forall₂.length_eq h
  simpa using this

theorem erase_snoc {k : Key} {cur : List Key} (h : (cur ++ [k]).Nodup) : (cur ++ [k]).erase k = cur := by
  have hk : k ∉ cur := by
    intro hk
    rw [List.nodup_append] at h
    exact h.2.2 k hk k (by simp) rfl
  rw [List.erase_append_right _ hk]; simp

theorem wf_child {l : Bool} {es : List (Key × Cfg)} (h : WellFormed (.node l es)) {k : Key} {v : Cfg} (hv : (k, v) ∈ es) :
    es.lookup k = some v ∧ WellFormed v := by
  have hn := (h [] l es rfl).1
  have hl := lookup_of_mem hn hv
  refine ⟨hl, ?_⟩
  intro p l' es' hp
  exact h (k :: p) l' es' (by simp only [readAt, hl]; exact hp)

mutual
theorem pathFind_exact (key : Key) : ∀ (c : Cfg) (cur : List Key) (all : List (List Key)), WellFormed c →
    (∀ p, HasPath c p → (cur ++ p).Nodup) →
    pathFind key c cur all = (cur, all ++ (pathsTo key c).map (cur ++ ·))
  | .leaf _, cur, all, _, _ => by simp [pathFind, pathsTo]
  | .node l es, cur, all, hw, hp => by
    simp only [pathFind, pathsTo]
    refine pathFindEntries_exact key es cur all ?_
    rintro ⟨k, v⟩ he
    obtain ⟨hl, hwv⟩ := wf_child hw he
    refine ⟨hwv, hp [k] ⟨by simp, by simp [readAt, hl]⟩, ?_⟩
    intro p hpv
    exact hp (k :: p) ⟨by simp, by simp only [readAt, hl]; exact hpv.2⟩
theorem pathFindEntries_exact (key : Key) : ∀ (es : List (Key × Cfg)) (cur : List Key) (all : List (List Key)),
    (∀ e ∈ es, WellFormed e.2 ∧ (cur ++ [e.1]).Nodup ∧ ∀ p, HasPath e.2 p → (cur ++ e.1 :: p).Nodup) →
    pathFindEntries key es cur all = (cur, all ++ (pathsToEntries key es).map (cur ++ ·))
  | [], cur, all, _ => by simp [pathFindEntries, pathsToEntries]
  | e :: rest, cur, all, h => by
    have h1 := pathFindEntry_exact key e cur all (h e (by simp))
    have h2 := pathFindEntries_exact key rest cur (all ++ (pathsToEntry key e).map (cur ++ ·))
      (fun e' he' => h e' (by simp [he']))
    simp only [pathFindEntries, pathsToEntries, h1, h2]
    simp
theorem pathFindEntry_exact (key : Key) : ∀ (e : Key × Cfg) (cur : List Key) (all : List (List Key)),
    (WellFormed e.2 ∧ (cur ++ [e.1]).Nodup ∧ ∀ p, HasPath e.2 p → (cur ++ e.1 :: p).Nodup) →
    pathFindEntry key e cur all = (cur, all ++ (pathsToEntry key e).map (cur ++ ·))
  | (k, v), cur, all, ⟨hw, hn, hp⟩ => by
    have h1 := pathFind_exact key v (cur ++ [k]) (if k = key then all ++ [cur ++ [k]] else all) hw
      (by intro p hpv; have := hp p hpv; simpa using this)
    simp only [pathFindEntry, pathsToEntry, h1, erase_snoc hn]
    split <;> simp [List.map_map, Function.comp_def]
end

theorem readAt_nil (c : Cfg) : readAt c [] = some c := by cases c <;> rfl

mutual
theorem mem_pathsTo (key : Key) : ∀ (c : Cfg), WellFormed c → ∀ p,
    p ∈ pathsTo key c ↔ (HasPath c p ∧ p.getLast? = some key)
  | .leaf _, _, p => by
    simp only [pathsTo, List.not_mem_nil, false_iff, not_and]
    rintro ⟨h1, h2⟩
    cases p with
    | nil => exact absurd rfl h1
    | cons _ _ => simp [readAt] at h2
  | .node l es, hw, p => by
    simp only [pathsTo]
    rw [mem_pathsToEntries key es (fun e he => (wf_child hw he).2) p]
    constructor
    · rintro ⟨k, v, p', he, rfl, hl, hp⟩
      have := (wf_child hw he).1
      refine ⟨⟨by simp, ?_⟩, hl⟩
      simp only [readAt, this]; exact hp
    · rintro ⟨⟨hne, hs⟩, hl⟩
      cases p with
      | nil => exact absurd rfl hne
      | cons k p' =>
        simp only [readAt] at hs
        cases hlk : es.lookup k with
        | none => rw [hlk] at hs; simp at hs
        | some v => rw [hlk] at hs; exact ⟨k, v, p', lookup_mem hlk, rfl, hl, hs⟩
theorem mem_pathsToEntries (key : Key) : ∀ (es : List (Key × Cfg)), (∀ e ∈ es, WellFormed e.2) → ∀ p,
    p ∈ pathsToEntries key es ↔ ∃ k v p', (k, v) ∈ es ∧ p = k :: p' ∧ p.getLast? = some key ∧ (readAt v p').isSome
  | [], _, p => by simp [pathsToEntries]
  | e :: rest, hw, p => by
    simp only [pathsToEntries, List.mem_append]
    rw [mem_pathsToEntries key rest (fun e' he' => hw e' (by simp [he'])) p, mem_pathsToEntry key e (hw e (by simp)) p]
    constructor
    · rintro (⟨p', h1, h2, h3⟩ | ⟨k, v, p', h0, h1, h2, h3⟩)
      · exact ⟨e.1, e.2, p', by simp, h1, h2, h3⟩
      · exact ⟨k, v, p', by simp [h0], h1, h2, h3⟩
    · rintro ⟨k, v, p', h0, h1, h2, h3⟩
      rcases List.mem_cons.mp h0 with h0 | h0
      · left; subst h0; exact ⟨p', h1, h2, h3⟩
      · right; exact ⟨k, v, p', h0, h1, h2, h3⟩
theorem mem_pathsToEntry (key : Key) : ∀ (e : Key × Cfg), WellFormed e.2 → ∀ p,
    p ∈ pathsToEntry key e ↔ ∃ p', p = e.1 :: p' ∧ p.getLast? = some key ∧ (readAt e.2 p').isSome
  | (k, v), hw, p => by
    simp only [pathsToEntry, List.mem_append, List.mem_map]
    constructor
    · rintro (h | ⟨q, hq, rfl⟩)
      · by_cases hk : k = key
        · simp only [hk, if_true, List.mem_singleton] at h
          subst h
          refine ⟨[], by simp [hk], by simp, by simp [readAt_nil]⟩
        · simp [hk] at h
      · obtain ⟨⟨hne, hs⟩, hl⟩ := (mem_pathsTo key v hw q).mp hq
        refine ⟨q, rfl, ?_, hs⟩
        cases q with
        | nil => exact absurd rfl hne
        | cons a q => simpa using hl
    · rintro ⟨p', rfl, hl, hs⟩
      cases p' with
      | nil =>
        left
        simp at hl
        simp [hl]
      | cons a q =>
        right
        exact ⟨a :: q, (mem_pathsTo key v hw _).mpr ⟨⟨by simp, hs⟩, by simpa using hl⟩, rfl⟩
end

mutual
theorem pathsTo_nodup (key : Key) : ∀ (c : Cfg), WellFormed c → (pathsTo key c).Nodup
  | .leaf _, _ => by simp [pathsTo]
  | .node l es, hw => by
    simp only [pathsTo]
    exact pathsToEntries_nodup key es (hw [] l es rfl).1 (fun e he => (wf_child hw he).2)
theorem pathsToEntries_nodup (key : Key) : ∀ (es : List (Key × Cfg)), (es.map Prod.fst).Nodup →
    (∀ e ∈ es, WellFormed e.2) → (pathsToEntries key es).Nodup
  | [], _, _ => by simp [pathsToEntries]
  | e :: rest, hn, hw => by
    simp only [List.map_cons, List.nodup_cons] at hn
    simp only [pathsToEntries]
    rw [List.nodup_append]
    refine ⟨pathsToEntry_nodup key e (hw e (by simp)),
      pathsToEntries_nodup key rest hn.2 (fun e' he' => hw e' (by simp [he'])), ?_⟩
    rintro a ha b hb rfl
    rw [mem_pathsToEntry key e (hw e (by simp))] at ha
    rw [mem_pathsToEntries key rest (fun e' he' => hw e' (by simp [he']))] at hb
    obtain ⟨p', rfl, _⟩ := ha
    obtain ⟨k, v, p'', hm, he, _⟩ := hb
    simp only [List.cons.injEq] at he
    exact hn.1 (List.mem_map.mpr ⟨(k, v), hm, he.1.symm⟩)
theorem pathsToEntry_nodup (key : Key) : ∀ (e : Key × Cfg), WellFormed e.2 → (pathsToEntry key e).Nodup
  | (k, v), hw => by
    simp only [pathsToEntry]
    rw [List.nodup_append]
    refine ⟨by split <;> simp, (pathsTo_nodup key v hw).map (by intro a b h; simpa using h), ?_⟩
    rintro a ha b hb rfl
    obtain ⟨q, hq, rfl⟩ := List.mem_map.mp hb
    have := ((mem_pathsTo key v hw q).mp hq).1.1
    split at ha
    · simp at ha; exact this ha
    · simp at ha
end

mutual
theorem pathExists_eq (key : Key) : ∀ (c : Cfg) (found : Bool),
    pathExists key c found = true ↔ (found = true ∨ pathsTo key c ≠ [])
  | .leaf _, found => by simp [pathExists, pathsTo]
  | .node _ es, found => by simp only [pathExists, pathsTo]; exact pathExistsEntries_eq key es found
theorem pathExistsEntries_eq (key : Key) : ∀ (es : List (Key × Cfg)) (found : Bool),
    pathExistsEntries key es found = true ↔ (found = true ∨ pathsToEntries key es ≠ [])
  | [], found => by simp [pathExistsEntries, pathsToEntries]
  | e :: rest, found => by
    simp only [pathExistsEntries, pathsToEntries]
    rw [pathExistsEntries_eq key rest, pathExistsEntry_eq key e]
    simp only [ne_eq, List.append_eq_nil_iff, not_and_or, or_assoc]
theorem pathExistsEntry_eq (key : Key) : ∀ (e : Key × Cfg) (found : Bool),
    pathExistsEntry key e found = true ↔ (found = true ∨ pathsToEntry key e ≠ [])
  | (k, v), found => by
    simp only [pathExistsEntry, pathsToEntry]
    by_cases h : k = key
    · simp [h]
    · simp only [h, if_false, List.nil_append, ne_eq, List.map_eq_nil_iff]
      exact pathExists_eq key v found
end

/-! ### deletion -/

theorem setEntry_same {es : List (Key × Cfg)} {k : Key} {v : Cfg} (h : es.lookup k = some v) : setEntry es k v = es := by
  induction es with
  | nil => simp [List.lookup] at h
  | cons e es ih =>
    obtain ⟨k0, v0⟩ := e
    by_cases hk : k = k0
    · subst hk; simp [List.lookup] at h; simp [setEntry, h]
    · have : (k == k0) = false := by simpa using hk
      simp only [List.lookup, this] at h
      simp [setEntry, hk, ih h]

theorem step_lookup {l : Bool} {es : List (Key × Cfg)} {k : Key} {x : Cfg} (h : pathGetStep (.node l es) k = some x) :
    es.lookup k = some x := by
  unfold pathGetStep at h
  split at h
  · cases l
    · simp only at h
      split at h
      · cases h
      · rename_i v hv
        split at h
        · cases h
        · rw [hv]; exact h
    · simp at h
  · exact h

theorem step_set_node {l : Bool} (es : List (Key × Cfg)) (k : Key) {sub sub' : Cfg} (hk : es.lookup k = some sub)
    (h1 : sub.isNotFound = false) (h2 : sub'.isNotFound = false) :
    (pathGetStep (.node l es) k = some sub ∧ pathGetStep (.node l (setEntry es k sub')) k = some sub') ∨
    (pathGetStep (.node l es) k = none ∧ pathGetStep (.node l (setEntry es k sub')) k = none) := by
  unfold pathGetStep
  by_cases h : k = .str "sweep"
  · cases l
    · left
      simp only [h, if_true]
      rw [← h, hk, lookup_setEntry_self]
      simp [h1, h2]
    · right; simp [h]
  · left
    simp [h, Cfg.getItem, hk, lookup_setEntry_self]

theorem pathDelete_spec (ks : List Key) : ∀ (k : Key) (s x : Cfg), WellFormed s → readAt s (k :: ks) = some x →
    (∃ es0, readAt s ((k :: ks).dropLast) = some (.node false es0)) → (∀ a ∈ (k :: ks).dropLast, toIndex a = a) →
    ∃ l es', pathDelete s (k :: ks) = some (.node l es', true) ∧ readAt (.node l es') (k :: ks) = none ∧
      pathGetLoop (.node l es') (k :: ks) = none ∧
      ∀ q, Unrelated (k :: ks) q → pathGetLoop (.node l es') q = pathGetLoop s q := by
  induction ks with
  | nil =>
    rintro k s x hw hx ⟨es, hes⟩ _
    simp only [List.dropLast_singleton, readAt_nil, Option.some.injEq] at hes
    subst hes
    have hsome : (es.lookup k).isSome := by
      simp only [readAt] at hx
      split at hx
      · cases hx
      · rename_i v hv; simp [hv]
    have hnone := lookup_eraseEntry_self es (hw [] false es rfl).1 k
    refine ⟨false, eraseEntry es k, by simp [pathDelete, hsome], by simp [readAt, hnone], ?_, ?_⟩
    · rw [pathGetLoop]
      cases h : pathGetStep (.node false (eraseEntry es k)) k with
      | none => rfl
      | some y => rw [step_lookup h] at hnone; cases hnone
    · intro q hu
      cases q with
      | nil => exact absurd List.nil_prefix hu.2
      | cons k2 q =>
        have hne : k2 ≠ k := by rintro rfl; exact hu.1 (by simp)
        rw [pathGetLoop, pathGetLoop, step_other (lookup_eraseEntry_ne es hne)]
  | cons k' ks ih =>
    rintro k s x hw hx ⟨es0, hes⟩ hidx
    rw [List.dropLast_cons_of_ne_nil (by simp)] at hes hidx
    cases s with
    | leaf a => simp [readAt] at hx
    | node l es =>
      simp only [readAt] at hx hes
      cases hk : es.lookup k with
      | none => rw [hk] at hx; cases hx
      | some sub =>
        rw [hk] at hx hes
        simp only at hx hes
        have hki : toIndex k = k := hidx k (by simp)
        obtain ⟨l1, es1, h1, h2, h3, h4⟩ := ih k' sub x (wf_child hw (lookup_mem hk)).2 hx ⟨es0, hes⟩
          (fun a ha => hidx a (by simp [ha]))
        have hsub : sub.isNotFound = false := by
          cases sub with
          | leaf a => simp [readAt] at hx
          | node _ _ => rfl
        refine ⟨l, setEntry es k (.node l1 es1), by simp [pathDelete, hki, hk, h1], ?_, ?_, ?_⟩
        · rw [readAt, lookup_setEntry_self]; exact h2
        · rw [pathGetLoop]
          rcases step_set_node (l := l) es k (sub' := .node l1 es1) hk hsub rfl with ⟨_, h⟩ | ⟨_, h⟩
          · rw [h]; exact h3
          · rw [h]
        · intro q hu
          cases q with
          | nil => exact absurd List.nil_prefix hu.2
          | cons k2 q =>
            by_cases hne : k2 = k
            · subst hne
              have hu' : Unrelated (k' :: ks) q :=
                ⟨fun hp => hu.1 ((List.prefix_cons_inj k2).mpr hp), fun hp => hu.2 ((List.prefix_cons_inj k2).mpr hp)⟩
              rw [pathGetLoop, pathGetLoop]
              rcases step_set_node (l := l) es k2 (sub' := .node l1 es1) hk hsub rfl with ⟨h, h'⟩ | ⟨h, h'⟩
              · rw [h, h']; exact h4 q hu'
              · rw [h, h']
            · rw [pathGetLoop, pathGetLoop, step_other (lookup_setEntry_ne es _ hne)]

theorem pathDelete_missing (ks : List Key) : ∀ (k : Key) (s s' : Cfg) (b : Bool), WellFormed s →
    readAt s (k :: ks) = none → (∀ a ∈ (k :: ks).dropLast, toIndex a = a) →
    pathDelete s (k :: ks) = some (s', b) → s' = s ∧ b = false := by
  induction ks with
  | nil =>
    intro k s s' b hw hr _ h
    cases s with
    | leaf a =>
      simp only [pathDelete, Option.some.injEq, Prod.mk.injEq] at h
      exact ⟨h.1.symm, h.2.symm⟩
    | node l es =>
      have hnone : es.lookup k = none := by
        simp only [readAt] at hr
        cases hk : es.lookup k with
        | none => rfl
        | some v => rw [hk] at hr; simp [readAt_nil] at hr
      cases l with
      | false =>
        simp [pathDelete, hnone] at h
        exact ⟨h.1.symm, h.2⟩
      | true =>
        cases k with
        | str t => simp [pathDelete] at h
        | idx i =>
          have hkeys := (hw [] true es rfl).2 rfl
          have hlt : ¬ i < es.length := by
            intro hlt
            rw [lookup_none_iff, hkeys] at hnone
            exact hnone (List.mem_map.mpr ⟨i, List.mem_range.mpr hlt, rfl⟩)
          simp only [pathDelete, hlt, if_false, Option.some.injEq, Prod.mk.injEq] at h
          exact ⟨h.1.symm, h.2.symm⟩
  | cons k' ks ih =>
    intro k s s' b hw hr hidx h
    rw [List.dropLast_cons_of_ne_nil (by simp)] at hidx
    have hki : toIndex k = k := hidx k (by simp)
    cases s with
    | leaf a =>
      simp only [pathDelete, Option.some.injEq, Prod.mk.injEq] at h
      exact ⟨h.1.symm, h.2.symm⟩
    | node l es =>
      simp only [pathDelete, hki] at h
      cases hk : es.lookup k with
      | none =>
        rw [hk] at h
        simp only [Option.some.injEq, Prod.mk.injEq] at h
        exact ⟨h.1.symm, h.2.symm⟩
      | some sub =>
        rw [hk] at h
        simp only [readAt, hk] at hr
        simp only at h
        split at h
        · simp only [Option.some.injEq, Prod.mk.injEq] at h
          exact ⟨h.1.symm, h.2.symm⟩
        · rename_i sub' b' hrec
          simp only [Option.some.injEq, Prod.mk.injEq] at h
          obtain ⟨h1, h2⟩ := ih k' sub sub' b' (wf_child hw (lookup_mem hk)).2 hr (fun a ha => hidx a (by simp [ha])) hrec
          rw [← h.1, ← h.2, h1, h2, setEntry_same hk]
          exact ⟨rfl, rfl⟩

end GeNSIT
