import Verif.Config.FlatLemmas
import Verif.Config.Check

/-!
# Properties of the nested settings: C28 – C34, C43, C65, C66

`pathGet s p = some v` stands for `path_get(p) == (v, True)`, `none` for `(_, False)`; `pathSet ov s v p = some (s', b)`
for a call that returns `b` and leaves the settings in the state `s'`.
-/

set_option linter.unusedSimpArgs false
set_option linter.unusedVariables false

namespace GeNSIT

open Spec

/-- `'key'`. -/
private abbrev K (s : String) : Key := .str s
/-- A number. -/
private abbrev N (x : Int) : Cfg := .leaf (.num x)

/-! ## C28 -/

/-- With `overwrite`, the stored value is read back from any non-empty path of any dictionary.  (The string
`'not-found'` is the code's own marker for a missing value and is read as missing.) -/
theorem C28_set_then_get (es : List (Key × Cfg)) (v : Cfg) (hv : v ≠ .leaf (.str "not-found")) (p : List Key) (hp : p ≠ []) :
    ∃ s', pathSet true (.node false es) v p = some (s', true) ∧ pathGet s' p = some v := by
  have hv' : v.isNotFound = false := by
    cases h : v.isNotFound with
    | false => rfl
    | true =>
      exfalso; unfold Cfg.isNotFound at h
      split at h
      · exact hv rfl
      · cases h
  cases p with
  | nil => exact absurd rfl hp
  | cons k ks =>
    obtain ⟨es', h1, h2⟩ := pathSet_overwrite v hv' ks k es
    exact ⟨_, h1, by simp [pathGet, h2, hv']⟩

example : pathSet true (.node false [(K "a", .node false [(K "b", N 1), (K "c", N 2)])]) (N 7) [K "a", K "b"]
    = some (.node false [(K "a", .node false [(K "b", N 7)])], true) := rfl

/-- The same without `overwrite`, when the containers on the way exist and are dictionaries. -/
theorem C28_set_then_get_plain (s v : Cfg) (hv : v ≠ .leaf (.str "not-found")) (p : List Key) (hp : p ≠ [])
    (hdict : ∀ q, q <+: p.dropLast → ∃ es, readAt s q = some (.node false es)) :
    ∃ s', pathSet false s v p = some (s', true) ∧ pathGet s' p = some v := by
  have hv' : v.isNotFound = false := by
    cases h : v.isNotFound with
    | false => rfl
    | true =>
      exfalso; unfold Cfg.isNotFound at h
      split at h
      · exact hv rfl
      · cases h
  cases p with
  | nil => exact absurd rfl hp
  | cons k ks =>
    obtain ⟨s', h⟩ := pathSet_succeeds v ks k s hdict
    obtain ⟨_, h2⟩ := pathSet_get v hv' ks k s s' true (hdict _ (List.prefix_refl _)) h
    exact ⟨s', h, by simp [pathGet, h2, hv']⟩

example : pathSet false (.node false [(K "a", .node false [(K "b", N 1), (K "c", N 2)])]) (N 7) [K "a", K "b"]
    = some (.node false [(K "a", .node false [(K "b", N 7), (K "c", N 2)])], true) := rfl

/-! ## C29 -/

/-- Without `overwrite` no unrelated path changes; with `overwrite` no path that starts with another key changes. -/
theorem C29_frame_partial (ov : Bool) (s s' v : Cfg) (b : Bool) (p q : List Key) (h : pathSet ov s v p = some (s', b))
    (hu : Unrelated p q) (hov : ov = true → p.head? ≠ q.head?) : pathGet s' q = pathGet s q := by
  apply pathGet_eq_loop
  cases ov with
  | false => exact pathSet_frame p s s' v b q h hu
  | true =>
    have hne := hov rfl
    cases p with
    | nil => exact absurd List.nil_prefix hu.1
    | cons k ks =>
      cases q with
      | nil => exact absurd List.nil_prefix hu.2
      | cons k2 q =>
        have hk : k2 ≠ k := by rintro rfl; exact hne rfl
        have key : ∃ w, s.setItem k w = some s' := by
          cases ks with
          | nil =>
            simp only [pathSet, Option.map_eq_some_iff, Prod.mk.injEq] at h
            obtain ⟨x, hx, rfl, _⟩ := h
            exact ⟨_, hx⟩
          | cons k' ks =>
            simp only [pathSet, if_true] at h
            split at h
            · cases h
            · simp only [Option.map_eq_some_iff, Prod.mk.injEq] at h
              obtain ⟨x, hx, rfl, _⟩ := h
              exact ⟨_, hx⟩
        obtain ⟨w, hw⟩ := key
        rw [pathGetLoop, pathGetLoop, setItem_lookup_ne hw hk]

example : Unrelated [K "a", K "b"] [K "a", K "c"] := by unfold Unrelated; decide +kernel

/-- The full statement is false: with `overwrite` the siblings of an inner key are lost. -/
theorem C29_overwrite_loses_siblings :
    ∃ (s s' v : Cfg) (p q : List Key), WellFormed s ∧ Unrelated p q ∧ pathSet true s v p = some (s', true) ∧
      pathGet s q = some (N 2) ∧ pathGet s' q = none := by
  refine ⟨.node false [(K "a", .node false [(K "b", N 1), (K "c", N 2)])], .node false [(K "a", .node false [(K "b", N 7)])],
    N 7, [K "a", K "b"], [K "a", K "c"], ?_, by unfold Unrelated; decide +kernel, rfl, rfl, rfl⟩
  exact wellFormed_of_check _ rfl

/-! ## C30 -/

/-- False as stated: with a missing intermediate key `path_set` returns `True` and stores nothing, at every path. -/
theorem C30_true_without_storing (s s' v : Cfg) (b : Bool) (p : List Key) (hp : p ≠ [])
    (hmiss : readAt s p.dropLast = none) (h : pathSet false s v p = some (s', b)) : b = true ∧ s' = s := by
  cases p with
  | nil => exact absurd rfl hp
  | cons k ks =>
    obtain ⟨_, h1, h2⟩ := pathSet_missing v ks k s s' b hmiss h
    exact ⟨h2, h1⟩

example : pathSet false (.node false [(K "a", N 1)]) (N 7) [K "x", K "y"] = some (.node false [(K "a", N 1)], true) ∧
    readAt (.node false [(K "a", N 1)]) [K "x", K "y"].dropLast = none ∧
    pathGet (.node false [(K "a", N 1)]) [K "x", K "y"] = none := ⟨rfl, rfl, rfl⟩

/-- What holds: a reported success is real if `overwrite` is set or the container of the path is a dictionary. -/
theorem C30_success_partial (ov : Bool) (s s' v : Cfg) (b : Bool) (p : List Key) (hv : v ≠ .leaf (.str "not-found"))
    (hs : s.isDict = true) (hpar : ov = true ∨ ∃ es, readAt s p.dropLast = some (.node false es))
    (h : pathSet ov s v p = some (s', b)) : b = true ↔ (p ≠ [] ∧ pathGet s' p = some v) := by
  have hv' : v.isNotFound = false := by
    cases h : v.isNotFound with
    | false => rfl
    | true =>
      exfalso; unfold Cfg.isNotFound at h
      split at h
      · exact hv rfl
      · cases h
  obtain ⟨es, rfl⟩ := (isDict_iff s).mp hs
  cases p with
  | nil =>
    simp only [pathSet, Option.some.injEq, Prod.mk.injEq] at h
    simp [← h.2]
  | cons k ks =>
    have hb : b = true ∧ pathGetLoop s' (k :: ks) = some v := by
      cases ov with
      | true =>
        obtain ⟨es', h1, h2⟩ := pathSet_overwrite v hv' ks k es
        rw [h1] at h
        simp only [Option.some.injEq, Prod.mk.injEq] at h
        exact ⟨h.2.symm, h.1 ▸ h2⟩
      | false =>
        rcases hpar with hpar | hpar
        · cases hpar
        · exact pathSet_get v hv' ks k _ s' b hpar h
    simp [hb.1, pathGet, hb.2, hv']

/-! ## C31 -/

/-- If no key is repeated along a path, `path_find` (with fresh accumulators) returns exactly the paths ending in the
key, each once. -/
theorem C31_find_exact_partial (key : Key) (c : Cfg) (hw : WellFormed c) (hrep : ∀ p, HasPath c p → p.Nodup) :
    (pathFind key c [] []).2.Nodup ∧
      ∀ p, p ∈ (pathFind key c [] []).2 ↔ (HasPath c p ∧ p.getLast? = some key) := by
  have h := pathFind_exact key c [] [] hw (by simpa using hrep)
  have h2 : (pathFind key c [] []).2 = pathsTo key c := by rw [h]; simp
  rw [h2]
  exact ⟨pathsTo_nodup key c hw, mem_pathsTo key c hw⟩

/-- A three-level tree. -/
private abbrev T3 : Cfg := .node false
  [(K "a", .node false [(K "b", N 1), (K "c", .node true [(.idx 0, N 5), (.idx 1, .node false [(K "b", N 2)])])])]

example : WellFormed T3 ∧ ∀ p, HasPath T3 p → p.Nodup := ⟨wellFormed_of_check _ rfl, noRepeat_of_check _ rfl⟩
example : (pathFind (K "b") T3 [] []).2 = [[K "a", K "b"], [K "a", K "c", .idx 1, K "b"]] := rfl

/-- For every tree: one result per occurrence, each naming the right keys up to their order. -/
theorem C31_find_up_to_order_partial (key : Key) (c : Cfg) (hw : WellFormed c) :
    ∃ P : List (List Key), P.Nodup ∧ (∀ p, p ∈ P ↔ (HasPath c p ∧ p.getLast? = some key)) ∧
      List.Forall₂ List.Perm (pathFind key c [] []).2 P := by
  obtain ⟨_, L, h1, h2⟩ := pathFind_perm key c [] []
  refine ⟨pathsTo key c, pathsTo_nodup key c hw, mem_pathsTo key c hw, ?_⟩
  rw [h1]
  unfold UpToOrder at h2
  simpa using h2

/-- The full statement is false: `{'a': {'b': {'a': 1, 'c': 2}}}` has `c` at `['a','b','c']`, but `path_find('c')` gives
`['b','a','c']`, which is not a path at all. -/
theorem C31_repeated_key_wrong_path :
    let c : Cfg := .node false [(K "a", .node false [(K "b", .node false [(K "a", N 1), (K "c", N 2)])])]
    (pathFind (K "c") c [] []).2 = [[K "b", K "a", K "c"]] ∧ pathGet c [K "b", K "a", K "c"] = none ∧
      pathGet c [K "a", K "b", K "c"] = some (N 2) := ⟨rfl, rfl, rfl⟩

/-- Calling `path_find(key)` without accumulators uses the shared default lists (`config.py:275`): a second call returns
the earlier results first. -/
theorem C31_default_argument_accumulates (key1 key2 : Key) (c : Cfg) :
    ∃ L, (pathFind key2 c (pathFind key1 c [] []).1 (pathFind key1 c [] []).2).2 = (pathFind key1 c [] []).2 ++ L := by
  obtain ⟨_, L, h, _⟩ := pathFind_perm key2 c (pathFind key1 c [] []).1 (pathFind key1 c [] []).2
  exact ⟨L, h⟩

example : (pathFind (K "b") T3 (pathFind (K "c") T3 [] []).1 (pathFind (K "c") T3 [] []).2).2 =
    [[K "a", K "c"], [K "a", K "b"], [K "a", K "c", .idx 1, K "b"]] := rfl

/-! ## C32 -/

/-- `path_exists` is `path_find` being non-empty, and both mean that some path ends in the key. -/
theorem C32_exists_iff_found (key : Key) (c : Cfg) (hw : WellFormed c) :
    (pathExists key c false = true ↔ (pathFind key c [] []).2 ≠ []) ∧
      (pathExists key c false = true ↔ ∃ p, HasPath c p ∧ p.getLast? = some key) := by
  obtain ⟨_, L, h1, h2⟩ := pathFind_perm key c [] []
  have hlen := upToOrder_length h2
  have hL : L = [] ↔ pathsTo key c = [] := by
    rw [← List.length_eq_zero_iff, ← List.length_eq_zero_iff, hlen]
  constructor
  · rw [pathExists_eq, h1]
    simp [hL]
  · rw [pathExists_eq]
    simp only [Bool.false_eq_true, false_or]
    constructor
    · intro h
      obtain ⟨p, hp⟩ := List.exists_mem_of_ne_nil _ h
      exact ⟨p, (mem_pathsTo key c hw p).mp hp⟩
    · rintro ⟨p, hp⟩
      exact List.ne_nil_of_mem ((mem_pathsTo key c hw p).mpr hp)

example : pathExists (K "b") T3 false = true ∧ pathExists (K "z") T3 false = false := ⟨rfl, rfl⟩

/-! ## C33 -/

/-- Deleting an existing entry of a dictionary, when no inner key is a numeric string. -/
theorem C33_delete_partial (s x : Cfg) (p : List Key) (hp : p ≠ []) (hw : WellFormed s) (hx : readAt s p = some x)
    (hpar : ∃ es, readAt s p.dropLast = some (.node false es)) (hnum : ∀ a ∈ p.dropLast, toIndex a = a) :
    ∃ s', pathDelete s p = some (s', true) ∧ pathGet s' p = none ∧
      ∀ q, Unrelated p q → pathGet s' q = pathGet s q := by
  cases p with
  | nil => exact absurd rfl hp
  | cons k ks =>
    obtain ⟨l, es', h1, _, h3, h4⟩ := pathDelete_spec ks k s x hw hx hpar hnum
    exact ⟨_, h1, by simp [pathGet, h3], fun q hq => pathGet_eq_loop (h4 q hq)⟩

example : pathDelete T3 [K "a", K "c"] = some (.node false [(K "a", .node false [(K "b", N 1)])], true) := rfl

/-- Deleting a path that does not exist changes nothing and reports so. -/
theorem C33_delete_missing (s s' : Cfg) (b : Bool) (p : List Key) (hw : WellFormed s) (hx : readAt s p = none)
    (hnum : ∀ a ∈ p.dropLast, toIndex a = a) (h : pathDelete s p = some (s', b)) : s' = s ∧ b = false := by
  cases p with
  | nil => rw [readAt_nil] at hx; cases hx
  | cons k ks => exact pathDelete_missing ks k s s' b hw hx hnum h

example : pathDelete T3 [K "a", K "z"] = some (T3, false) := rfl

/-- The full statement is false for list elements: deleting index 0 leaves index 0 readable (with the next element) and
makes the unrelated index 1 disappear. -/
theorem C33_list_deletion_shifts :
    let s : Cfg := .node false [(K "a", .node true [(.idx 0, N 10), (.idx 1, N 20)])]
    ∃ s', pathDelete s [K "a", .idx 0] = some (s', true) ∧ pathGet s' [K "a", .idx 0] = some (N 20) ∧
      pathGet s' [K "a", .idx 1] = none ∧ Unrelated [K "a", .idx 0] [K "a", .idx 1] :=
  ⟨_, rfl, rfl, rfl, by unfold Unrelated; decide +kernel⟩

/-- And for dictionaries with a numeric-string key on the way: the path exists but is not deleted. -/
theorem C33_numeric_key_not_deleted :
    let s : Cfg := .node false [(K "3", .node false [(K "b", N 1)])]
    pathGet s [K "3", K "b"] = some (N 1) ∧ pathDelete s [K "3", K "b"] = some (s, false) := ⟨rfl, rfl⟩

/-! ## C34 -/

/-- The merge: where `u` has a non-dictionary value, the result has it (with `overwrite`) or the old value if there is one
(without); where `u` has nothing, the old value survives. -/
theorem C34_merge_values (ov : Bool) (u d r : Cfg) (hw : WellFormed u) (hu : u.isDict = true)
    (h : updateRec ov u d = some r) (p : List Key) :
    (∀ x, LeafAt u p x → readAt r p = some (if ov then x else (readAt d p).getD x)) ∧
    ((readAt u p = none ∧ ∀ q x, q <+: p → ¬ LeafAt u q x) → readAt r p = readAt d p) :=
  ⟨fun x hx => updateRec_leafAt p u d r x hw h hu hx, fun hp => updateRec_elsewhere p u d r hw h hu hp.1 hp.2⟩

/-- The key order: at every dictionary of `u` the result has the old keys in their order followed by the new keys in
theirs. -/
theorem C34_merge_keys (ov : Bool) (u d r : Cfg) (hw : WellFormed u) (h : updateRec ov u d = some r) (p : List Key)
    (hp : ∀ q, q <+: p → ∃ es, readAt u q = some (.node false es)) (hd : (keysAt d p).isSome ∨ readAt d p = none) :
    ∃ new, keysAt u p = some new ∧
      keysAt r p = some ((keysAt d p).getD [] ++ new.filter fun k => decide (k ∉ (keysAt d p).getD [])) := by
  obtain ⟨es, hes⟩ := hp p (List.prefix_refl p)
  obtain ⟨us, hus⟩ := hp [] List.nil_prefix
  rw [readAt_nil, Option.some.injEq] at hus
  obtain ⟨r', h1, h2⟩ := updateRec_at p u d r es hw h (by rw [hus]; rfl) hes hp
  refine ⟨es.map Prod.fst, by simp [keysAt, hes], ?_⟩
  have hnd := (hw p false es hes).1
  have key : ∀ ds : List (Key × Cfg), (readAt d p).getD Cfg.empty = .node false ds →
      (keysAt d p).getD [] = ds.map Prod.fst := by
    intro ds hds
    unfold keysAt
    cases hr : readAt d p with
    | none => rw [hr] at hds; simp [Cfg.empty] at hds; simp [← hds]
    | some y => rw [hr] at hds; simp only [Option.getD_some] at hds; subst hds; simp
  have hds : ∃ ds, (readAt d p).getD Cfg.empty = .node false ds := by
    rcases hd with hd | hd
    · unfold keysAt at hd
      cases hr : readAt d p with
      | none => rw [hr] at hd; simp at hd
      | some y =>
        rw [hr] at hd
        cases y with
        | leaf a => simp at hd
        | node l ds =>
          cases l with
          | true => simp at hd
          | false => exact ⟨ds, rfl⟩
    · exact ⟨[], by simp [hd, Cfg.empty]⟩
  obtain ⟨ds, hds⟩ := hds
  rw [hds] at h2
  simp only [updateRec] at h2
  obtain ⟨rs, hrs, hkeys, _⟩ := updateRecEntries_spec es false ds r' hnd h2
  rw [key ds hds]
  have : keysAt r p = some (rs.map Prod.fst) := by simp [keysAt, h1, hrs]
  rw [this, hkeys, mergedKeys]

/-- It returns (does not raise) whenever no non-empty dictionary of `u` meets a non-dictionary of `d`. -/
theorem C34_merge_total (ov : Bool) (u d : Cfg) (hw : WellFormed u)
    (hd : ∀ p e es, (∀ q, q <+: p → ∃ es', readAt u q = some (.node false es')) →
      readAt u p = some (.node false (e :: es)) → ∀ x, readAt d p = some x → x.isDict = true) :
    ∃ r, updateRec ov u d = some r := updateRec_total ov u d hw hd

/-- Old settings. -/
private abbrev D0 : Cfg := .node false [(K "a", .node false [(K "x", N 1), (K "y", N 2)]), (K "b", N 3)]
/-- New settings. -/
private abbrev U0 : Cfg := .node false [(K "c", N 9), (K "a", .node false [(K "z", N 8), (K "x", N 7)])]

example : updateRec true U0 D0 = some (.node false
    [(K "a", .node false [(K "x", N 7), (K "y", N 2), (K "z", N 8)]), (K "b", N 3), (K "c", N 9)]) := rfl
example : updateRec false U0 D0 = some (.node false
    [(K "a", .node false [(K "x", N 1), (K "y", N 2), (K "z", N 8)]), (K "b", N 3), (K "c", N 9)]) := rfl

/-! ## C43 -/

/-- `deep_get` yields, in some fixed order, exactly the values at the outermost occurrences of the key. -/
theorem C43_get_outermost_partial (key : Key) (c : Cfg) (hw : WellFormed c) :
    ∃ P : List (List Key), P.Nodup ∧
      (∀ p, p ∈ P ↔ (HasPath c p ∧ p.getLast? = some key ∧ key ∉ p.dropLast)) ∧
      (deepGet key c).map some = P.map (readAt c) :=
  ⟨outerTo key c, outerTo_nodup key c hw, mem_outerTo key c hw, deepGet_outer key c hw⟩

example : (deepGet (K "b") T3).length = 2 := rfl

/-- An occurrence below another occurrence is not yielded. -/
theorem C43_get_misses_nested :
    let c : Cfg := .node false [(K "a", .node false [(K "a", N 1)])]
    readAt c [K "a", K "a"] = some (N 1) ∧ deepGet (K "a") c = [.node false [(K "a", N 1)]] := ⟨rfl, rfl⟩

/-- `deep_delete` along every path that passes through dictionaries only: paths through the key are gone, the rest is
there, and atoms and key order are kept. -/
theorem C43_delete_partial (key : Key) (c : Cfg) (p : List Key)
    (hp : ∀ q, q <+: p → q ≠ p → ∀ es, readAt c q ≠ some (.node true es)) :
    (key ∈ p → readAt (deepDelete key c) p = none) ∧
    (key ∉ p → ((readAt (deepDelete key c) p).isSome ↔ (readAt c p).isSome) ∧
      (∀ x, readAt c p = some x → x.isDict = false → readAt (deepDelete key c) p = some x) ∧
      (∀ ks, keysAt c p = some ks → keysAt (deepDelete key c) p = some (ks.filter fun k => decide (k ≠ key)))) := by
  have h := deepDelete_readAt key p c hp
  constructor
  · intro hk; rw [h]; simp [hk]
  · intro hk
    rw [h]
    simp only [hk, if_false]
    refine ⟨by simp, ?_, ?_⟩
    · intro x hx hd
      rw [hx]
      cases x with
      | leaf a => rfl
      | node l es =>
        cases l with
        | true => rfl
        | false => simp [Cfg.isDict] at hd
    · intro ks hks
      unfold keysAt at hks ⊢
      rw [h]
      simp only [hk, if_false]
      cases hr : readAt c p with
      | none => rw [hr] at hks; cases hks
      | some y =>
        rw [hr] at hks
        cases y with
        | leaf a => simp at hks
        | node l es =>
          cases l with
          | true => simp at hks
          | false =>
            simp only [Option.some.injEq] at hks
            subst hks
            simp [deepDelete, deepDeleteEntries_keys]

/-- In a tree without lists nothing is found after deletion. -/
theorem C43_delete_then_get_partial (key : Key) (c : Cfg) (hw : WellFormed c) (hl : ListFree c) :
    deepGet key (deepDelete key c) = [] := by
  have h := deepGet_outer key (deepDelete key c) (wf_deepDelete key c hw)
  have hnil : outerTo key (deepDelete key c) = [] := by
    rw [List.eq_nil_iff_forall_not_mem]
    intro p hp
    rw [mem_outerTo key _ (wf_deepDelete key c hw)] at hp
    obtain ⟨⟨_, h1⟩, h2, _⟩ := hp
    rw [deepDelete_readAt key p c (fun q _ _ es => hl q es)] at h1
    have hk : key ∈ p := List.mem_of_getLast? h2
    simp [hk] at h1
  rw [hnil] at h
  simpa using h

/-- With lists it is false: a dictionary inside a list is not visited. -/
theorem C43_delete_skips_lists :
    let c : Cfg := .node false [(K "l", .node true [(.idx 0, .node false [(K "a", N 1)])])]
    deepGet (K "a") (deepDelete (K "a") c) = [N 1] := rfl

/-- `deep_update` (with `overwrite`, string key): as many occurrences as before, all with the new value; every path
without the key keeps its atom and its keys — provided no list is directly inside a list. -/
theorem C43_update_partial (s : String) (val : Cfg) (es : List (Key × Cfg)) (hw : WellFormed (.node false es))
    (hl : ¬ ListInList (.node false es)) :
    (deepGet (.str s) (deepUpdate (.str s) val (.node false es)) = (deepGet (.str s) (.node false es)).map fun _ => val) ∧
    (∀ p, HasPath (.node false es) p → p.getLast? = some (.str s) → Key.str s ∉ p.dropLast →
      readAt (deepUpdate (.str s) val (.node false es)) p = some val) ∧
    (∀ p, Key.str s ∉ p → ∀ a, readAt (deepUpdate (.str s) val (.node false es)) p = some (.leaf a) ↔
      readAt (.node false es) p = some (.leaf a)) ∧
    (∀ p, Key.str s ∉ p → keysAt (deepUpdate (.str s) val (.node false es)) p = keysAt (.node false es) p) := by
  have heq : deepUpdate (.str s) val (.node false es) = deepUpdateValue (.str s) val (.node false es) := rfl
  rw [heq]
  refine ⟨deepGetValue_update s val _ hw hl, ?_, ?_, ?_⟩
  · rintro p ⟨hne, hs⟩ hlast hd
    obtain ⟨x, hx⟩ := Option.isSome_iff_exists.mp hs
    have hpp : p = p.dropLast ++ [.str s] := by
      have := List.dropLast_append_getLast? (l := p) (.str s) (by simpa using hlast)
      exact this.symm
    rw [hpp] at hx ⊢
    exact deepUpdateValue_outer s val p.dropLast _ x hw hl hd hx
  · intro p hp a
    rw [deepUpdateValue_readAt s val p _ hw hl hp]
    cases hr : readAt (.node false es) p with
    | none => simp
    | some y =>
      cases y with
      | leaf b => simp [deepUpdateValue]
      | node l e => cases l <;> simp [deepUpdateValue]
  · intro p hp
    unfold keysAt
    rw [deepUpdateValue_readAt s val p _ hw hl hp]
    cases hr : readAt (.node false es) p with
    | none => simp
    | some y =>
      cases y with
      | leaf b => simp [deepUpdateValue]
      | node l e => cases l <;> simp [deepUpdateValue, deepUpdateEntries_keys]

example : deepUpdate (K "b") (N 7) T3 = .node false
    [(K "a", .node false [(K "b", N 7), (K "c", .node true [(.idx 0, N 5), (.idx 1, .node false [(K "b", N 7)])])])] := rfl

/-- A dictionary in a list in a list is not updated, although `deep_get` finds it. -/
theorem C43_update_skips_nested_lists :
    let c : Cfg := .node false [(K "l", .node true [(.idx 0, .node true [(.idx 0, .node false [(K "a", N 1)])])])]
    deepGet (K "a") (deepUpdate (K "a") (N 7) c) = [N 1] := rfl

/-! ## C65: `deep_flatten` -/

/-- `deep_flatten` has one entry per key of a non-dictionary value; the entry is one of the values stored under that key,
hence the value when the key is used once. -/
theorem C65_flatten (c : Cfg) (hw : WellFormed c) (hd : c.isDict = true) :
    ((deepFlatten c).map Prod.fst).Nodup ∧
    (∀ k, k ∈ (deepFlatten c).map Prod.fst ↔ ∃ p x, LeafAt c (p ++ [k]) x) ∧
    (∀ k x, (k, x) ∈ deepFlatten c → ∃ p, LeafAt c (p ++ [k]) x) ∧
    (∀ k p x, LeafAt c (p ++ [k]) x → (∀ p' x', LeafAt c (p' ++ [k]) x' → p' = p) → (k, x) ∈ deepFlatten c) := by
  have hcomp : ∀ k p x, LeafAt c (p ++ [k]) x → k ∈ (deepFlatten c).map Prod.fst :=
    fun k p x h => flatten_complete c hw k x hd ⟨p, h⟩
  refine ⟨?_, ?_, ?_, ?_⟩
  · obtain ⟨es, rfl⟩ := (isDict_iff c).mp hd
    exact toDict_nodup _
  · intro k
    constructor
    · intro h
      obtain ⟨⟨k', x⟩, hm, rfl⟩ := List.mem_map.mp h
      obtain ⟨p, hp⟩ := flatten_sound c hw k' x hm
      exact ⟨p, x, hp⟩
    · rintro ⟨p, x, h⟩; exact hcomp k p x h
  · exact fun k x h => flatten_sound c hw k x h
  · intro k p x h huniq
    obtain ⟨⟨k', x'⟩, hm, rfl⟩ := List.mem_map.mp (hcomp k p x h)
    obtain ⟨p', hp'⟩ := flatten_sound c hw k' x' hm
    obtain rfl := huniq p' x' hp'
    have : some x' = some x := by rw [← hp'.1, ← h.1]
    simp only [Option.some.injEq] at this
    exact this ▸ hm

example : deepFlatten D0 = [(K "x", N 1), (K "y", N 2), (K "b", N 3)] := rfl

/-- Values under a repeated key are lost: the last one wins. -/
theorem C65_flatten_collision :
    let c : Cfg := .node false [(K "a", .node false [(K "x", N 1)]), (K "b", .node false [(K "x", N 2)])]
    deepFlatten c = [(K "x", N 2)] := rfl

/-! ## C66: `Config.update` and `path_modify` -/

/-- `Config.update` of one key (no key repeated along a path, all containers dictionaries): the value is stored at a path
ending in the key, and no unrelated path changes. -/
theorem C66_update_stores (s : Cfg) (key : Key) (v : Cfg) (hv : v ≠ .leaf (.str "not-found")) (hw : WellFormed s)
    (hrep : ∀ p, HasPath s p → p.Nodup) (hfree : ListFree s) (hex : ∃ p, HasPath s p ∧ p.getLast? = some key) :
    ∃ s' p, updateOne s key v = some s' ∧ HasPath s p ∧ p.getLast? = some key ∧ pathGet s' p = some v ∧
      ∀ q, Unrelated p q → pathGet s' q = pathGet s q := by
  obtain ⟨hnd, hmem⟩ := C31_find_exact_partial key s hw hrep
  obtain ⟨p0, hp0⟩ := hex
  cases hf : (pathFind key s [] []).2 with
  | nil => have := (hmem p0).mpr hp0; rw [hf] at this; simp at this
  | cons p rest =>
    have hp := (hmem p).mp (by rw [hf]; simp)
    obtain ⟨s', h1, h2⟩ := C28_set_then_get_plain s v hv p hp.1.1 (by
      intro q hq
      have hqp : q <+: p := hq.trans (List.dropLast_prefix p)
      obtain ⟨t, rfl⟩ := hqp
      have ht : t ≠ [] := by
        rintro rfl
        rw [List.append_nil] at hq
        have h1 := hq.length_le
        rw [List.length_dropLast] at h1
        have : q ≠ [] := by simpa using hp.1.1
        have := List.length_pos_iff.mpr this
        omega
      have happ : ∀ (a : List Key) (c : Cfg), (readAt c (a ++ t)).isSome → ∃ l es, readAt c a = some (.node l es) := by
        intro a
        induction a with
        | nil =>
          intro c hc
          cases c with
          | leaf x =>
            cases t with
            | nil => exact absurd rfl ht
            | cons k t => simp [readAt] at hc
          | node l es => exact ⟨l, es, rfl⟩
        | cons k a ih =>
          intro c hc
          cases c with
          | leaf x => simp [readAt] at hc
          | node l es =>
            simp only [List.cons_append, readAt] at hc ⊢
            cases hl : es.lookup k with
            | none => rw [hl] at hc; simp at hc
            | some w => rw [hl] at hc; exact ih w hc
      obtain ⟨l, es, he⟩ := happ q s hp.1.2
      cases l with
      | true => exact absurd he (hfree q es)
      | false => exact ⟨es, he⟩)
    refine ⟨s', p, by simp [updateOne, hf, h1], hp.1, hp.2, h2, ?_⟩
    intro q hq
    exact C29_frame_partial false s s' v true p q h1 hq (by simp)

example : WellFormed D0 ∧ ListFree D0 ∧ (∀ p, HasPath D0 p → p.Nodup) ∧ HasPath D0 [K "a", K "y"] :=
  ⟨wellFormed_of_check _ rfl, listFree_of_check _ rfl, noRepeat_of_check _ rfl, by simp, rfl⟩
example : updateOne D0 (K "y") (N 5) =
    some (.node false [(K "a", .node false [(K "x", N 1), (K "y", N 5)]), (K "b", N 3)]) := rfl

/-- `path_modify` reports success although the nested key does not exist and nothing was stored. -/
theorem C66_modify_true_without_storing :
    let s : Cfg := .node false [(K "a", .node false [(K "b", N 1)])]
    pathModify s (N 7) [K "a", K "z"] = some (s, true) ∧ pathGet s [K "a", K "z"] = none := ⟨rfl, rfl⟩

/-- Through a list nothing is stored either, although the path exists: `in` compares the key with the elements. -/
theorem C66_modify_through_list :
    let s : Cfg := .node false [(K "a", .node true [(.idx 0, .node false [(K "b", N 1)])])]
    (readAt s [K "a", .idx 0, K "b"]).isSome ∧ pathModify s (N 7) [K "a", .idx 0, K "b"] = some (s, true) := ⟨rfl, rfl⟩

/-- `path_modify` at an existing path of a tree of dictionaries stores the value and touches nothing else. -/
theorem C66_modify_stores (v : Cfg) (p : List Key) : ∀ (s : Cfg), p ≠ [] → ListFree s → (readAt s p).isSome →
    ∃ s', pathModify s v p = some (s', true) ∧ readAt s' p = some v ∧
      ∀ q, Unrelated p q → readAt s' q = readAt s q := by
  induction p with
  | nil => intro s hp; exact absurd rfl hp
  | cons k ks ih =>
    intro s _ hf hs
    cases s with
    | leaf a => simp [readAt] at hs
    | node l es =>
      cases l with
      | true => exact absurd rfl (hf [] es)
      | false =>
        cases hk : es.lookup k with
        | none => simp [readAt, hk] at hs
        | some sub =>
          have hs' : (readAt sub ks).isSome := by simpa [readAt, hk] using hs
          have frame : ∀ (x : Cfg), (∀ q, Unrelated ks q → readAt x q = readAt sub q) →
              ∀ q, Unrelated (k :: ks) q → readAt (.node false (setEntry es k x)) q = readAt (.node false es) q := by
            intro x hx q hu
            cases q with
            | nil => exact absurd List.nil_prefix hu.2
            | cons k2 q =>
              by_cases hne : k2 = k
              · subst hne
                have hu' : Unrelated ks q :=
                  ⟨fun hp => hu.1 ((List.prefix_cons_inj k2).mpr hp), fun hp => hu.2 ((List.prefix_cons_inj k2).mpr hp)⟩
                simp only [readAt, lookup_setEntry_self, hk]
                exact hx q hu'
              · simp only [readAt, lookup_setEntry_ne es x hne]
          cases ks with
          | nil =>
            refine ⟨.node false (setEntry es k v), by simp [pathModify, Cfg.containsKey, Cfg.setItem, hk], ?_, ?_⟩
            · simp [readAt, lookup_setEntry_self, readAt_nil]
            · exact frame v fun q hu => absurd List.nil_prefix hu.1
          | cons k' ks =>
            have hf' : ListFree sub := by
              intro q es' hq
              exact hf (k :: q) es' (by simpa [readAt, hk] using hq)
            obtain ⟨sub', h1, h2, h3⟩ := ih sub (by simp) hf' hs'
            refine ⟨.node false (setEntry es k sub'), by simp [pathModify, Cfg.containsKey, Cfg.setItem, Cfg.getItem, hk, h1], ?_, frame sub' h3⟩
            rw [readAt, lookup_setEntry_self]
            exact h2

/-- `path_modify` with a first key that does not exist reports failure and changes nothing. -/
theorem C66_modify_missing (es : List (Key × Cfg)) (v : Cfg) (k : Key) (ks : List Key) (hk : es.lookup k = none) :
    pathModify (.node false es) v (k :: ks) = some (.node false es, false) := by
  cases ks <;> simp [pathModify, Cfg.containsKey, hk]

example : pathModify D0 (N 5) [K "a", K "y"] =
    some (.node false [(K "a", .node false [(K "x", N 1), (K "y", N 5)]), (K "b", N 3)], true) := rfl

/-! ## Exact reading, and numeric strings -/

theorem isNotFound_iff (v : Cfg) : v.isNotFound = true ↔ v = .leaf (.str "not-found") := by
  constructor
  · intro h
    unfold Cfg.isNotFound at h
    split at h
    · rfl
    · cases h
  · rintro rfl; rfl

theorem pathGetLoop_read (p : List Key) : ∀ (s v : Cfg), WellFormed s → (∀ k ∈ p, ∃ n, k = Key.str n) →
    v ≠ .leaf (.str "not-found") → (pathGetLoop s p = some v ↔ readAt s p = some v) := by
  induction p with
  | nil => intro s v _ _ _; rw [pathGetLoop, readAt_nil]
  | cons k ks ih =>
    intro s v hw hstr hv
    obtain ⟨n, rfl⟩ := hstr k (by simp)
    have hrest : ∀ k ∈ ks, ∃ n, k = Key.str n := fun a ha => hstr a (by simp [ha])
    rw [pathGetLoop]
    cases s with
    | leaf a =>
      have hst : pathGetStep (.leaf a) (.str n) = none := by
        unfold pathGetStep
        split
        · rfl
        · cases a <;> rfl
      rw [hst]
      simp [readAt]
    | node l es =>
      rw [readAt]
      cases hk : es.lookup (.str n) with
      | none =>
        have hst : pathGetStep (.node l es) (.str n) = none := by
          cases h : pathGetStep (.node l es) (.str n) with
          | none => rfl
          | some x => rw [step_lookup h] at hk; cases hk
        simp only [hst, reduceCtorEq]
      | some w =>
        have hww := (wf_child hw (lookup_mem hk)).2
        have hl : l = false := by
          cases l with
          | false => rfl
          | true =>
            exfalso
            have h1 := (hw [] true es rfl).2 rfl
            have h2 : Key.str n ∈ es.map Prod.fst := (lookup_isSome_iff es _).1 (by rw [hk]; rfl)
            rw [h1] at h2
            obtain ⟨i, _, hi⟩ := List.mem_map.1 h2
            cases hi
        subst hl
        have hst : pathGetStep (.node false es) (.str n) = some w ∨
            (pathGetStep (.node false es) (.str n) = none ∧ w.isNotFound = true) := by
          unfold pathGetStep
          by_cases hsw : Key.str n = .str "sweep"
          · rw [if_pos hsw]
            simp only [hk]
            cases hnf : w.isNotFound with
            | false => left; rfl
            | true => right; exact ⟨rfl, rfl⟩
          · rw [if_neg hsw]
            left
            exact hk
        rcases hst with hst | ⟨hst, hnf⟩
        · rw [hst]
          exact ih w v hww hrest hv
        · rw [hst]
          have hw' := (isNotFound_iff w).1 hnf
          subst hw'
          simp only [reduceCtorEq, false_iff]
          cases ks with
          | nil =>
            rw [readAt_nil]
            intro h
            exact hv (Option.some.inj h).symm
          | cons a b => simp [readAt]

/-- **C28 (exact reading).**  Reading along a path of names succeeds with `v` exactly when `v` is stored there and is not the
text `not-found`, which the code uses to mark a missing value. -/
theorem C28_get_exact (s v : Cfg) (p : List Key) (hw : WellFormed s) (hstr : ∀ k ∈ p, ∃ n, k = Key.str n) :
    pathGet s p = some v ↔ p ≠ [] ∧ readAt s p = some v ∧ v ≠ .leaf (.str "not-found") := by
  unfold pathGet
  by_cases hp : p = []
  · simp [hp]
  · have hpe : p.isEmpty = false := by simpa using hp
    rw [hpe]
    simp only [Bool.false_eq_true, if_false]
    constructor
    · intro h
      split at h
      · cases h
      · next w hl =>
        split at h
        · cases h
        · next hnf =>
          cases h
          have hv : v ≠ .leaf (.str "not-found") := fun e => hnf ((isNotFound_iff v).2 e)
          exact ⟨hp, (pathGetLoop_read p s v hw hstr hv).1 hl, hv⟩
    · rintro ⟨_, hr, hv⟩
      rw [(pathGetLoop_read p s v hw hstr hv).2 hr]
      simp only
      rw [if_neg (fun e => hv ((isNotFound_iff v).1 e))]

example : pathGet (.node false [(K "a", .leaf (.str "not-found"))]) [K "a"] = none ∧
    readAt (.node false [(K "a", .leaf (.str "not-found"))]) [K "a"] = some (.leaf (.str "not-found")) := ⟨rfl, rfl⟩

theorem toIndex_idem (k : Key) : toIndex (toIndex k) = toIndex k := by
  cases k with
  | idx i => rfl
  | str s =>
    by_cases h : (!s.toList.isEmpty && s.toList.all Char.isDigit) = true
    · have : toIndex (.str s) = .idx (digitsValue s.toList) := if_pos h
      rw [this]; rfl
    · have : toIndex (.str s) = .str s := if_neg h
      rw [this, this]

/-- **C33.**  Inner components of a path to delete may be written as numeric strings: they mean the index. -/
theorem C33_numeric_strings_are_indices (p : List Key) : ∀ (s : Cfg) (k : Key),
    pathDelete s (p ++ [k]) = pathDelete s (p.map toIndex ++ [k]) := by
  induction p with
  | nil => intro s k; rfl
  | cons a p ih =>
    intro s k
    obtain ⟨b, t, hbt⟩ : ∃ b t, p ++ [k] = b :: t := by cases p <;> simp
    obtain ⟨b', t', hbt'⟩ : ∃ b t, p.map toIndex ++ [k] = b :: t := by cases p <;> simp
    rw [List.map_cons, List.cons_append, List.cons_append, hbt, hbt']
    simp only [pathDelete, toIndex_idem]
    cases s with
    | leaf x => rfl
    | node l es =>
      simp only
      cases es.lookup (toIndex a) with
      | none => rfl
      | some sub =>
        simp only
        rw [← hbt, ← hbt', ih sub k]

example : pathDelete (.node false [(K "a", .node true [(.idx 0, .node false [(K "b", N 1)])])]) [K "a", K "0", K "b"] =
    some (.node false [(K "a", .node true [(.idx 0, .node false [])])], true) := rfl

end GeNSIT
