import Verif.Config.UpdLemmas

/-! # `deep_get`, `deep_delete`, `deep_update`: helper lemmas -/

set_option linter.unusedSimpArgs false

namespace GeNSIT

open Spec

mutual
/-- Paths of the outermost occurrences, in search order. -/
def outerTo (key : Key) : Cfg → List (List Key)
  | .leaf _ => []
  | .node _ es => outerToEntries key es
/-- Over the items. -/
def outerToEntries (key : Key) : List (Key × Cfg) → List (List Key)
  | [] => []
  | e :: rest => outerToEntry key e ++ outerToEntries key rest
/-- One item. -/
def outerToEntry (key : Key) : Key × Cfg → List (List Key)
  | (k, v) => if k = key then [[k]] else (outerTo key v).map (k :: ·)
end

mutual
theorem mem_outerTo (key : Key) : ∀ (c : Cfg), WellFormed c → ∀ p,
    p ∈ outerTo key c ↔ (HasPath c p ∧ p.getLast? = some key ∧ key ∉ p.dropLast)
  | .leaf _, _, p => by
    simp only [outerTo, List.not_mem_nil, false_iff, not_and]
    rintro ⟨h1, h2⟩
    cases p with
    | nil => exact absurd rfl h1
    | cons _ _ => simp [readAt] at h2
  | .node l es, hw, p => by
    simp only [outerTo]
    rw [mem_outerToEntries key es (fun e he => (wf_child hw he).2) p]
    constructor
    · rintro ⟨k, v, p', he, rfl, hl, hp⟩
      have := (wf_child hw he).1
      refine ⟨⟨by simp, ?_⟩, hl⟩
      simp only [readAt, this]; exact hp
    · rintro ⟨⟨hne, hs⟩, hl⟩
      cases p with
      | nil => exact absurd rfl hne
      | cons k p' =>
        simp only [readAt] at hs
        cases hlk : es.lookup k with
        | none => rw [hlk] at hs; simp at hs
        | some v => rw [hlk] at hs; exact ⟨k, v, p', lookup_mem hlk, rfl, hl, hs⟩
theorem mem_outerToEntries (key : Key) : ∀ (es : List (Key × Cfg)), (∀ e ∈ es, WellFormed e.2) → ∀ p,
    p ∈ outerToEntries key es ↔
      ∃ k v p', (k, v) ∈ es ∧ p = k :: p' ∧ (p.getLast? = some key ∧ key ∉ p.dropLast) ∧ (readAt v p').isSome
  | [], _, p => by simp [outerToEntries]
  | e :: rest, hw, p => by
    simp only [outerToEntries, List.mem_append]
    rw [mem_outerToEntries key rest (fun e' he' => hw e' (by simp [he'])) p, mem_outerToEntry key e (hw e (by simp)) p]
    constructor
    · rintro (⟨p', h1, h2, h3⟩ | ⟨k, v, p', h0, h1, h2, h3⟩)
      · exact ⟨e.1, e.2, p', by simp, h1, h2, h3⟩
      · exact ⟨k, v, p', by simp [h0], h1, h2, h3⟩
    · rintro ⟨k, v, p', h0, h1, h2, h3⟩
      rcases List.mem_cons.mp h0 with h0 | h0
      · left; subst h0; exact ⟨p', h1, h2, h3⟩
      · right; exact ⟨k, v, p', h0, h1, h2, h3⟩
theorem mem_outerToEntry (key : Key) : ∀ (e : Key × Cfg), WellFormed e.2 → ∀ p,
    p ∈ outerToEntry key e ↔
      ∃ p', p = e.1 :: p' ∧ (p.getLast? = some key ∧ key ∉ p.dropLast) ∧ (readAt e.2 p').isSome
  | (k, v), hw, p => by
    simp only [outerToEntry]
    by_cases hk : k = key
    · subst hk
      simp only [if_true, List.mem_singleton]
      constructor
      · rintro rfl; exact ⟨[], rfl, by simp, by simp [readAt_nil]⟩
      · rintro ⟨p', rfl, ⟨_, h⟩, _⟩
        cases p' with
        | nil => rfl
        | cons a q => simp [List.dropLast] at h
    · simp only [hk, if_false, List.mem_map]
      constructor
      · rintro ⟨q, hq, rfl⟩
        obtain ⟨⟨hne, hs⟩, hl, hd⟩ := (mem_outerTo key v hw q).mp hq
        refine ⟨q, rfl, ?_, hs⟩
        cases q with
        | nil => exact absurd rfl hne
        | cons a q => exact ⟨by simpa using hl, by simpa [List.dropLast, Ne.symm hk] using hd⟩
      · rintro ⟨p', rfl, ⟨hl, hd⟩, hs⟩
        cases p' with
        | nil => simp at hl; exact absurd hl hk
        | cons a q =>
          refine ⟨a :: q, (mem_outerTo key v hw _).mpr ⟨⟨by simp, hs⟩, by simpa using hl, ?_⟩, rfl⟩
          simpa [List.dropLast, Ne.symm hk] using hd
end

mutual
theorem outerTo_nodup (key : Key) : ∀ (c : Cfg), WellFormed c → (outerTo key c).Nodup
  | .leaf _, _ => by simp [outerTo]
  | .node l es, hw => by
    simp only [outerTo]
    exact outerToEntries_nodup key es (hw [] l es rfl).1 (fun e he => (wf_child hw he).2)
theorem outerToEntries_nodup (key : Key) : ∀ (es : List (Key × Cfg)), (es.map Prod.fst).Nodup →
    (∀ e ∈ es, WellFormed e.2) → (outerToEntries key es).Nodup
  | [], _, _ => by simp [outerToEntries]
  | e :: rest, hn, hw => by
    simp only [List.map_cons, List.nodup_cons] at hn
    simp only [outerToEntries]
    rw [List.nodup_append]
    refine ⟨outerToEntry_nodup key e (hw e (by simp)),
      outerToEntries_nodup key rest hn.2 (fun e' he' => hw e' (by simp [he'])), ?_⟩
    rintro a ha b hb rfl
    rw [mem_outerToEntry key e (hw e (by simp))] at ha
    rw [mem_outerToEntries key rest (fun e' he' => hw e' (by simp [he']))] at hb
    obtain ⟨p', rfl, _⟩ := ha
    obtain ⟨k, v, p'', hm, he, _⟩ := hb
    simp only [List.cons.injEq] at he
    exact hn.1 (List.mem_map.mpr ⟨(k, v), hm, he.1.symm⟩)
theorem outerToEntry_nodup (key : Key) : ∀ (e : Key × Cfg), WellFormed e.2 → (outerToEntry key e).Nodup
  | (k, v), hw => by
    simp only [outerToEntry]
    split
    · simp
    · exact (outerTo_nodup key v hw).map (by intro a b h; simpa using h)
end

mutual
theorem deepGet_outer (key : Key) : ∀ (c : Cfg), WellFormed c →
    (deepGet key c).map some = (outerTo key c).map (readAt c)
  | .leaf _, _ => by simp [deepGet, outerTo]
  | .node l es, hw => by
    simp only [deepGet, outerTo]
    refine deepGetEntries_outer key es _ (fun e he => (wf_child hw he).2) ?_
    intro e he q
    simp [readAt, (wf_child hw he).1]
theorem deepGetEntries_outer (key : Key) : ∀ (es : List (Key × Cfg)) (f : List Key → Option Cfg),
    (∀ e ∈ es, WellFormed e.2) → (∀ e ∈ es, ∀ q, f (e.1 :: q) = readAt e.2 q) →
    (deepGetEntries key es).map some = (outerToEntries key es).map f
  | [], _, _, _ => by simp [deepGetEntries, outerToEntries]
  | e :: rest, f, hw, hf => by
    simp only [deepGetEntries, outerToEntries, List.map_append]
    rw [deepGetEntry_outer key e f (hw e (by simp)) (hf e (by simp)),
      deepGetEntries_outer key rest f (fun e' he' => hw e' (by simp [he'])) (fun e' he' => hf e' (by simp [he']))]
theorem deepGetEntry_outer (key : Key) : ∀ (e : Key × Cfg) (f : List Key → Option Cfg), WellFormed e.2 →
    (∀ q, f (e.1 :: q) = readAt e.2 q) → (deepGetEntry key e).map some = (outerToEntry key e).map f
  | (k, v), f, hw, hf => by
    simp only at hf hw
    simp only [deepGetEntry, outerToEntry]
    split
    · simp [hf, readAt_nil]
    · rw [deepGet_outer key v hw, List.map_map]
      apply List.map_congr_left
      intro q _
      simp [hf]
end

/-! ### deletion -/

theorem deepDeleteEntries_lookup (key : Key) (es : List (Key × Cfg)) (k : Key) :
    (deepDeleteEntries key es).lookup k = if k = key then none else (es.lookup k).map (deepDelete key) := by
  induction es with
  | nil => simp [deepDeleteEntries, List.lookup]
  | cons e es ih =>
    obtain ⟨k0, v0⟩ := e
    simp only [deepDeleteEntries, deepDeleteEntry]
    by_cases h0 : k0 = key
    · simp only [h0, if_true, List.nil_append, ih]
      by_cases hk : k = key
      · simp [hk]
      · have : (k == key) = false := by simpa using hk
        simp [hk, List.lookup, this]
    · simp only [h0, if_false, List.cons_append, List.nil_append, List.lookup]
      by_cases hkk : k = k0
      · subst hkk; simp [h0]
      · have : (k == k0) = false := by simpa using hkk
        simp [this, ih]

theorem deepDeleteEntries_keys (key : Key) (es : List (Key × Cfg)) :
    (deepDeleteEntries key es).map Prod.fst = (es.map Prod.fst).filter (fun k => decide (k ≠ key)) := by
  induction es with
  | nil => simp [deepDeleteEntries]
  | cons e es ih =>
    obtain ⟨k0, v0⟩ := e
    simp only [deepDeleteEntries, deepDeleteEntry]
    by_cases h0 : k0 = key
    · simp [h0, ih]
    · simp [h0, ih]

/-- Along a path through dictionaries only. -/
theorem deepDelete_readAt (key : Key) (p : List Key) : ∀ (c : Cfg),
    (∀ q, q <+: p → q ≠ p → ∀ es, readAt c q ≠ some (.node true es)) →
    readAt (deepDelete key c) p = if key ∈ p then none else (readAt c p).map (deepDelete key) := by
  induction p with
  | nil => intro c _; simp [readAt_nil]
  | cons k ks ih =>
    intro c h
    cases c with
    | leaf a => simp [deepDelete, readAt]
    | node l es =>
      cases l with
      | true => exact absurd rfl (h [] List.nil_prefix (by simp) es)
      | false =>
        simp only [deepDelete, readAt, deepDeleteEntries_lookup]
        by_cases hk : k = key
        · simp [hk]
        · simp only [hk, if_false, List.mem_cons, Ne.symm hk, false_or]
          cases hl : es.lookup k with
          | none => simp
          | some v =>
            simp only [Option.map_some]
            apply ih
            intro q hq hne es' hes
            refine h (k :: q) ((List.prefix_cons_inj k).mpr hq) (by simpa using hne) es' ?_
            simp only [readAt, hl]; exact hes

mutual
theorem wf_deepDelete (key : Key) : ∀ (c : Cfg), WellFormed c → WellFormed (deepDelete key c)
  | .leaf _, h => h
  | .node true _, h => h
  | .node false es, h => by
    simp only [deepDelete]
    intro p l es' hp
    cases p with
    | nil =>
      simp only [readAt_nil, Option.some.injEq, Cfg.node.injEq] at hp
      obtain ⟨rfl, rfl⟩ := hp
      refine ⟨?_, by simp⟩
      rw [deepDeleteEntries_keys]
      exact (h [] false es rfl).1.filter _
    | cons k p =>
      simp only [readAt, deepDeleteEntries_lookup] at hp
      by_cases hk : k = key
      · simp [hk] at hp
      · simp only [hk, if_false] at hp
        cases hl : es.lookup k with
        | none => simp [hl] at hp
        | some v =>
          rw [hl] at hp
          exact wf_deepDeleteEntries key es (fun e he => (wf_child h he).2) (k, v) (lookup_mem hl) p l es' hp
theorem wf_deepDeleteEntries (key : Key) : ∀ (es : List (Key × Cfg)), (∀ e ∈ es, WellFormed e.2) →
    ∀ e ∈ es, WellFormed (deepDelete key e.2)
  | [], _, e, he => by simp at he
  | e0 :: rest, hw, e, he => by
    rcases List.mem_cons.mp he with h0 | he
    · rw [h0]; exact wf_deepDeleteEntry key e0 (hw e0 (by simp))
    · exact wf_deepDeleteEntries key rest (fun e' he' => hw e' (by simp [he'])) e he
theorem wf_deepDeleteEntry (key : Key) : ∀ (e : Key × Cfg), WellFormed e.2 → WellFormed (deepDelete key e.2)
  | (_, v), h => wf_deepDelete key v h
end

/-! ### update -/

theorem deepUpdateEntries_lookup (key : Key) (val : Cfg) (es : List (Key × Cfg)) (k : Key) :
    (deepUpdateEntries key val es).lookup k =
      if k = key then (es.lookup k).map (fun _ => val) else (es.lookup k).map (deepUpdateValue key val) := by
  induction es with
  | nil => simp [deepUpdateEntries, List.lookup]
  | cons e es ih =>
    obtain ⟨k0, v0⟩ := e
    simp only [deepUpdateEntries, deepUpdateEntry]
    by_cases hkk : k = k0
    · subst hkk
      by_cases hk : k = key
      · simp [hk, List.lookup]
      · simp [hk, List.lookup]
    · have : (k == k0) = false := by simpa using hkk
      split <;> simp only [List.lookup, this, ih]

theorem deepUpdateElems_lookup (key : Key) (val : Cfg) (es : List (Key × Cfg)) (k : Key) :
    (deepUpdateElems key val es).lookup k = (es.lookup k).map (deepUpdate key val) := by
  induction es with
  | nil => simp [deepUpdateElems, List.lookup]
  | cons e es ih =>
    obtain ⟨k0, v0⟩ := e
    simp only [deepUpdateElems, deepUpdateElem, List.lookup]
    by_cases hkk : k = k0
    · subst hkk; simp
    · have : (k == k0) = false := by simpa using hkk
      simp [this, ih]

theorem deepUpdateEntries_keys (key : Key) (val : Cfg) (es : List (Key × Cfg)) :
    (deepUpdateEntries key val es).map Prod.fst = es.map Prod.fst := by
  induction es with
  | nil => rfl
  | cons e es ih =>
    obtain ⟨k0, v0⟩ := e
    simp only [deepUpdateEntries, deepUpdateEntry, List.map_cons, ih]
    split <;> rfl

theorem deepUpdateElems_keys (key : Key) (val : Cfg) (es : List (Key × Cfg)) :
    (deepUpdateElems key val es).map Prod.fst = es.map Prod.fst := by
  induction es with
  | nil => rfl
  | cons e es ih =>
    obtain ⟨k0, v0⟩ := e
    simp only [deepUpdateElems, deepUpdateElem, List.map_cons, ih]

/-- The two recursive functions differ only on a list at the root. -/
theorem deepUpdate_eq_value (key : Key) (val : Cfg) (c : Cfg) (h : ∀ es, c ≠ .node true es) :
    deepUpdate key val c = deepUpdateValue key val c := by
  cases c with
  | leaf a => rfl
  | node l es =>
    cases l with
    | false => rfl
    | true => exact absurd rfl (h es)

theorem listInList_child {l : Bool} {es : List (Key × Cfg)} {k : Key} {v : Cfg} (hk : es.lookup k = some v)
    (h : ListInList v) : ListInList (.node l es) := by
  obtain ⟨p, k', e1, e2, h1, h2⟩ := h
  exact ⟨k :: p, k', e1, e2, by simp only [readAt, hk]; exact h1, h2⟩

theorem deepUpdateValue_readAt (s : String) (val : Cfg) (p : List Key) : ∀ (c : Cfg), WellFormed c → ¬ ListInList c →
    Key.str s ∉ p → readAt (deepUpdateValue (.str s) val c) p = (readAt c p).map (deepUpdateValue (.str s) val) := by
  induction p with
  | nil => intro c _ _ _; simp [readAt_nil]
  | cons k ks ih =>
    intro c hw hn hp
    simp only [List.mem_cons, not_or] at hp
    cases c with
    | leaf a => simp [deepUpdateValue, readAt]
    | node l es =>
      cases l with
      | false =>
        simp only [deepUpdateValue, readAt, deepUpdateEntries_lookup, Ne.symm hp.1, if_false]
        cases hl : es.lookup k with
        | none => simp
        | some v =>
          simp only [Option.map_some]
          exact ih v (wf_child hw (lookup_mem hl)).2 (fun h => hn (listInList_child hl h)) hp.2
      | true =>
        simp only [deepUpdateValue, readAt, deepUpdateElems_lookup]
        cases hl : es.lookup k with
        | none => simp
        | some v =>
          simp only [Option.map_some]
          rw [deepUpdate_eq_value]
          · exact ih v (wf_child hw (lookup_mem hl)).2 (fun h => hn (listInList_child hl h)) hp.2
          · rintro es' rfl
            exact hn ⟨[], k, es, es', rfl, hl⟩

theorem deepUpdateValue_outer (s : String) (val : Cfg) (p : List Key) (c x : Cfg) (hw : WellFormed c) (hn : ¬ ListInList c)
    (hp : Key.str s ∉ p) (hx : readAt c (p ++ [.str s]) = some x) :
    readAt (deepUpdateValue (.str s) val c) (p ++ [.str s]) = some val := by
  have happ : ∀ (p q : List Key) (c : Cfg), readAt c (p ++ q) = (readAt c p).bind fun y => readAt y q := by
    intro p
    induction p with
    | nil => intro q c; simp [readAt_nil]
    | cons k p ih =>
      intro q c
      cases c with
      | leaf a => simp [readAt]
      | node l es =>
        simp only [List.cons_append, readAt]
        cases es.lookup k with
        | none => simp
        | some v => simpa using ih q v
  rw [happ, deepUpdateValue_readAt s val p c hw hn hp]
  rw [happ] at hx
  cases hy : readAt c p with
  | none => rw [hy] at hx; simp at hx
  | some y =>
    rw [hy] at hx
    simp only [Option.bind_some] at hx
    simp only [Option.map_some, Option.bind_some]
    cases y with
    | leaf a => simp [readAt] at hx
    | node l es =>
      cases hl : es.lookup (.str s) with
      | none => simp [readAt, hl] at hx
      | some z =>
        cases l with
        | false => simp [deepUpdateValue, readAt, deepUpdateEntries_lookup, hl, readAt_nil]
        | true =>
          exfalso
          have h1 := (hw p true es hy).2 rfl
          have h2 : Key.str s ∈ es.map Prod.fst := (lookup_isSome_iff es _).mp (by simp [hl])
          rw [h1] at h2
          simp at h2

/-! ### counting occurrences after an update -/

mutual
theorem deepGetValue_update (s : String) (val : Cfg) : ∀ (c : Cfg), WellFormed c → ¬ ListInList c →
    deepGet (.str s) (deepUpdateValue (.str s) val c) = (deepGet (.str s) c).map fun _ => val
  | .leaf _, _, _ => rfl
  | .node false es, hw, hn => by
    simp only [deepUpdateValue, deepGet]
    exact deepGetEntries_update s val es (fun e he => (wf_child hw he).2)
      (fun e he h => hn (listInList_child (wf_child hw he).1 h))
  | .node true es, hw, hn => by
    simp only [deepUpdateValue, deepGet]
    refine deepGetElems_update s val es (fun e he => (wf_child hw he).2)
      (fun e he h => hn (listInList_child (wf_child hw he).1 h)) ?_ ?_
    · intro e he h
      have h1 := (hw [] true es rfl).2 rfl
      have h2 : Key.str s ∈ es.map Prod.fst := h ▸ List.mem_map.mpr ⟨e, he, rfl⟩
      rw [h1] at h2
      simp at h2
    · intro e he es' h
      exact hn ⟨[], e.1, es, es', rfl, by rw [(wf_child hw he).1, h]⟩
theorem deepGetEntries_update (s : String) (val : Cfg) : ∀ (es : List (Key × Cfg)), (∀ e ∈ es, WellFormed e.2) →
    (∀ e ∈ es, ¬ ListInList e.2) →
    deepGetEntries (.str s) (deepUpdateEntries (.str s) val es) = (deepGetEntries (.str s) es).map fun _ => val
  | [], _, _ => rfl
  | e :: rest, hw, hn => by
    simp only [deepUpdateEntries, deepGetEntries, List.map_append]
    rw [deepGetEntry_update s val e (hw e (by simp)) (hn e (by simp)),
      deepGetEntries_update s val rest (fun e' he' => hw e' (by simp [he'])) (fun e' he' => hn e' (by simp [he']))]
theorem deepGetEntry_update (s : String) (val : Cfg) : ∀ (e : Key × Cfg), WellFormed e.2 → ¬ ListInList e.2 →
    deepGetEntry (.str s) (deepUpdateEntry (.str s) val e) = (deepGetEntry (.str s) e).map fun _ => val
  | (k, v), hw, hn => by
    simp only [deepUpdateEntry]
    by_cases h : k = .str s
    · simp [h, deepGetEntry]
    · simp only [h, if_false, deepGetEntry]
      rw [deepGetValue_update s val v hw hn]
theorem deepGetElems_update (s : String) (val : Cfg) : ∀ (es : List (Key × Cfg)), (∀ e ∈ es, WellFormed e.2) →
    (∀ e ∈ es, ¬ ListInList e.2) → (∀ e ∈ es, e.1 ≠ .str s) → (∀ e ∈ es, ∀ es', e.2 ≠ .node true es') →
    deepGetEntries (.str s) (deepUpdateElems (.str s) val es) = (deepGetEntries (.str s) es).map fun _ => val
  | [], _, _, _, _ => rfl
  | e :: rest, hw, hn, hk, hl => by
    simp only [deepUpdateElems, deepGetEntries, List.map_append]
    rw [deepGetElem_update s val e (hw e (by simp)) (hn e (by simp)) (hk e (by simp)) (hl e (by simp)),
      deepGetElems_update s val rest (fun e' he' => hw e' (by simp [he'])) (fun e' he' => hn e' (by simp [he']))
        (fun e' he' => hk e' (by simp [he'])) (fun e' he' => hl e' (by simp [he']))]
theorem deepGetElem_update (s : String) (val : Cfg) : ∀ (e : Key × Cfg), WellFormed e.2 → ¬ ListInList e.2 →
    e.1 ≠ .str s → (∀ es', e.2 ≠ .node true es') →
    deepGetEntry (.str s) (deepUpdateElem (.str s) val e) = (deepGetEntry (.str s) e).map fun _ => val
  | (k, v), hw, hn, hk, hl => by
    simp only at hk hl
    simp only [deepUpdateElem, deepGetEntry, hk, if_false]
    rw [deepUpdate_eq_value (.str s) val v hl, deepGetValue_update s val v hw hn]
end

end GeNSIT
