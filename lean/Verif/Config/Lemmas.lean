import Verif.Config.Spec

set_option linter.unusedSimpArgs false

namespace GeNSIT

open Spec

theorem lookup_setEntry_self (es : List (Key × Cfg)) (k : Key) (v : Cfg) : (setEntry es k v).lookup k = some v := by
  induction es with
  | nil => simp [setEntry, List.lookup]
  | cons e es ih =>
    obtain ⟨k', v'⟩ := e
    by_cases h : k = k'
    · subst h; simp [setEntry, List.lookup]
    · have : (k == k') = false := by simpa using h
      simp [setEntry, h, List.lookup, this, ih]

theorem lookup_setEntry_ne (es : List (Key × Cfg)) {k k2 : Key} (v : Cfg) (h : k2 ≠ k) :
    (setEntry es k v).lookup k2 = es.lookup k2 := by
  induction es with
  | nil =>
    have : (k2 == k) = false := by simpa using h
    simp [setEntry, List.lookup, this]
  | cons e es ih =>
    obtain ⟨k', v'⟩ := e
    by_cases h' : k = k'
    · subst h'
      have : (k2 == k) = false := by simpa using h
      simp [setEntry, List.lookup, this]
    · simp only [setEntry, h', if_false, List.lookup]
      rw [ih]

theorem setEntry_keys (es : List (Key × Cfg)) (k : Key) (v : Cfg) :
    (setEntry es k v).map Prod.fst = es.map Prod.fst ++ (if k ∈ es.map Prod.fst then [] else [k]) := by
  induction es with
  | nil => simp [setEntry]
  | cons e es ih =>
    obtain ⟨k', v'⟩ := e
    by_cases h' : k = k'
    · subst h'; simp [setEntry]
    · simp only [setEntry, h', if_false, List.map_cons, ih, List.mem_cons, false_or, List.cons_append]

theorem lookup_isSome_iff (es : List (Key × Cfg)) (k : Key) : (es.lookup k).isSome ↔ k ∈ es.map Prod.fst := by
  induction es with
  | nil => simp [List.lookup]
  | cons e es ih =>
    obtain ⟨k', v'⟩ := e
    by_cases h : k = k'
    · subst h; simp [List.lookup]
    · have : (k == k') = false := by simpa using h
      simp [List.lookup, this, ih, h]

theorem lookup_none_iff (es : List (Key × Cfg)) (k : Key) : es.lookup k = none ↔ k ∉ es.map Prod.fst := by
  rw [← lookup_isSome_iff]; cases es.lookup k <;> simp

theorem lookup_mem {es : List (Key × Cfg)} {k : Key} {v : Cfg} (h : es.lookup k = some v) : (k, v) ∈ es := by
  induction es with
  | nil => simp [List.lookup] at h
  | cons e es ih =>
    obtain ⟨k', v'⟩ := e
    by_cases hk : k = k'
    · subst hk; simp [List.lookup] at h; simp [h]
    · have : (k == k') = false := by simpa using hk
      simp only [List.lookup, this] at h
      exact List.mem_cons_of_mem _ (ih h)

theorem lookup_of_mem {es : List (Key × Cfg)} (hn : (es.map Prod.fst).Nodup) {k : Key} {v : Cfg} (h : (k, v) ∈ es) :
    es.lookup k = some v := by
  induction es with
  | nil => simp at h
  | cons e es ih =>
    obtain ⟨k', v'⟩ := e
    simp only [List.map_cons, List.nodup_cons] at hn
    rcases List.mem_cons.mp h with h | h
    · obtain ⟨rfl, rfl⟩ := Prod.mk.inj h; simp [List.lookup]
    · have hne : k ≠ k' := by
        intro e; rw [← e] at hn; exact hn.1 (List.mem_map.mpr ⟨(k, v), h, rfl⟩)
      have : (k == k') = false := by simpa using hne
      simp only [List.lookup, this]
      exact ih hn.2 h

theorem lookup_eraseEntry_ne (es : List (Key × Cfg)) {k k2 : Key} (h : k2 ≠ k) :
    (eraseEntry es k).lookup k2 = es.lookup k2 := by
  induction es with
  | nil => rfl
  | cons e es ih =>
    obtain ⟨k', v'⟩ := e
    by_cases h' : k = k'
    · subst h'
      have : (k2 == k) = false := by simpa using h
      simp [eraseEntry, List.lookup, this]
    · simp only [eraseEntry, h', if_false, List.lookup]
      rw [ih]

theorem lookup_eraseEntry_self (es : List (Key × Cfg)) (hn : (es.map Prod.fst).Nodup) (k : Key) :
    (eraseEntry es k).lookup k = none := by
  induction es with
  | nil => rfl
  | cons e es ih =>
    obtain ⟨k', v'⟩ := e
    simp only [List.map_cons, List.nodup_cons] at hn
    by_cases h' : k = k'
    · subst h'
      simp only [eraseEntry, if_true]
      rw [lookup_none_iff]; exact hn.1
    · have : (k == k') = false := by simpa using h'
      simp only [eraseEntry, h', if_false, List.lookup, this]
      exact ih hn.2

theorem notFound_node (l : Bool) (es : List (Key × Cfg)) : (Cfg.node l es).isNotFound = false := rfl

/-- Reading the first key of a dictionary after its entry changed. -/
theorem step_other {l : Bool} {es es' : List (Key × Cfg)} {k2 : Key} (h : es'.lookup k2 = es.lookup k2) :
    pathGetStep (.node l es') k2 = pathGetStep (.node l es) k2 := by
  unfold pathGetStep Cfg.getItem
  cases l <;> simp [h]

theorem setItem_lookup_ne {s s' : Cfg} {k k2 : Key} {v : Cfg} (h : s.setItem k v = some s') (hne : k2 ≠ k) :
    pathGetStep s' k2 = pathGetStep s k2 := by
  cases s with
  | leaf a => simp [Cfg.setItem] at h
  | node l es =>
    cases l with
    | false =>
      simp only [Cfg.setItem, Option.some.injEq] at h
      subst h
      exact step_other (lookup_setEntry_ne es v hne)
    | true =>
      simp only [Cfg.setItem] at h
      split at h
      · simp only [Option.some.injEq] at h
        subst h
        exact step_other (lookup_setEntry_ne es v hne)
      · cases h

theorem setItem_node {s s' : Cfg} {k : Key} {v : Cfg} (h : s.setItem k v = some s') : ∃ l es, s' = .node l es := by
  cases s with
  | leaf a => simp [Cfg.setItem] at h
  | node l es =>
    cases l with
    | false => simp only [Cfg.setItem, Option.some.injEq] at h; exact ⟨_, _, h.symm⟩
    | true =>
      simp only [Cfg.setItem] at h
      split at h
      · simp only [Option.some.injEq] at h; exact ⟨_, _, h.symm⟩
      · cases h

theorem setItem_dict_step (es : List (Key × Cfg)) (k : Key) (v : Cfg) (hv : v.isNotFound = false) :
    pathGetStep (.node false (setEntry es k v)) k = some v := by
  unfold pathGetStep
  by_cases h : k = .str "sweep"
  · simp only [h, if_true]
    rw [← h, lookup_setEntry_self]; simp [hv]
  · simp only [h, if_false, Cfg.getItem, lookup_setEntry_self]

theorem pathSet_node {ov : Bool} {s s' v : Cfg} {k : Key} {ks : List Key} {b : Bool}
    (h : pathSet ov s v (k :: ks) = some (s', b)) : s'.isNotFound = false ∧ s.isNotFound = false := by
  have key : ∀ {x : Cfg}, (∃ l es, x = .node l es) → x.isNotFound = false := by
    rintro x ⟨l, es, rfl⟩; rfl
  have key2 : ∀ {x y : Cfg} {k v}, x.setItem k v = some y → x.isNotFound = false := by
    intro x y k v h
    cases x with
    | leaf a => simp [Cfg.setItem] at h
    | node _ _ => rfl
  cases ks with
  | nil =>
    simp only [pathSet, Option.map_eq_some_iff, Prod.mk.injEq] at h
    obtain ⟨x, hx, rfl, _⟩ := h
    exact ⟨key (setItem_node hx), key2 hx⟩
  | cons k' ks =>
    simp only [pathSet] at h
    split at h
    · split at h
      · cases h
      · simp only [Option.map_eq_some_iff, Prod.mk.injEq] at h
        obtain ⟨x, hx, rfl, _⟩ := h
        exact ⟨key (setItem_node hx), key2 hx⟩
    · split at h
      · rename_i es
        split at h
        · split at h
          · cases h
          · simp only [Option.some.injEq, Prod.mk.injEq] at h
            exact ⟨by rw [← h.1]; rfl, rfl⟩
        · split at h
          · cases h
          · simp only [Option.some.injEq, Prod.mk.injEq] at h
            exact ⟨by rw [← h.1]; rfl, rfl⟩
      · cases h

theorem pathSet_overwrite (v : Cfg) (hv : v.isNotFound = false) (ks : List Key) :
    ∀ (k : Key) (es : List (Key × Cfg)), ∃ es', pathSet true (.node false es) v (k :: ks) = some (.node false es', true) ∧
      pathGetLoop (.node false es') (k :: ks) = some v := by
  induction ks with
  | nil =>
    intro k es
    refine ⟨setEntry es k v, by simp [pathSet, Cfg.setItem], ?_⟩
    simp [pathGetLoop, setItem_dict_step es k v hv]
  | cons k' ks ih =>
    intro k es
    obtain ⟨es', h1, h2⟩ := ih k' []
    refine ⟨setEntry es k (.node false es'), ?_, ?_⟩
    · simp [pathSet, Cfg.empty, h1, Cfg.setItem]
    · rw [pathGetLoop, setItem_dict_step es k _ rfl]
      exact h2

theorem pathSet_frame (p : List Key) : ∀ (s s' v : Cfg) (b : Bool) (q : List Key), pathSet false s v p = some (s', b) →
    Unrelated p q → pathGetLoop s' q = pathGetLoop s q := by
  induction p with
  | nil => intro s s' v b q _ hu; exact absurd List.nil_prefix hu.1
  | cons k ks ih =>
    intro s s' v b q h hu
    cases q with
    | nil => exact absurd List.nil_prefix hu.2
    | cons k2 q =>
      cases ks with
      | nil =>
        have hne : k2 ≠ k := by
          rintro rfl
          exact hu.1 (by simp)
        simp only [pathSet, Option.map_eq_some_iff, Prod.mk.injEq] at h
        obtain ⟨x, hx, rfl, _⟩ := h
        rw [pathGetLoop, pathGetLoop, setItem_lookup_ne hx hne]
      | cons k' ks =>
        simp only [pathSet, Bool.false_eq_true, if_false] at h
        split at h
        · rename_i es
          split at h
          · rename_i sub hsub
            split at h
            · cases h
            · rename_i sub' b' hrec
              simp only [Option.some.injEq, Prod.mk.injEq] at h
              obtain ⟨rfl, rfl⟩ := h
              by_cases hk : k2 = k
              · subst hk
                obtain ⟨h1, h2⟩ := pathSet_node hrec
                have hu' : Unrelated (k' :: ks) q := by
                  constructor
                  · intro hp; exact hu.1 ((List.prefix_cons_inj k2).mpr hp)
                  · intro hp; exact hu.2 ((List.prefix_cons_inj k2).mpr hp)
                have hstep : pathGetStep (.node false es) k2 = some sub := by
                  unfold pathGetStep
                  by_cases h : k2 = .str "sweep"
                  · simp only [h, if_true]
                    rw [← h, hsub]; simp [h2]
                  · simp only [h, if_false, Cfg.getItem, hsub]
                rw [pathGetLoop, pathGetLoop, setItem_dict_step es k2 sub' h1, hstep]
                exact ih _ _ _ _ _ hrec hu'
              · rw [pathGetLoop, pathGetLoop, step_other (lookup_setEntry_ne es sub' hk)]
          · split at h
            · cases h
            · simp only [Option.some.injEq, Prod.mk.injEq] at h
              rw [← h.1]
        · cases h

theorem pathSet_get (v : Cfg) (hv : v.isNotFound = false) (ks : List Key) :
    ∀ (k : Key) (s s' : Cfg) (b : Bool), (∃ es, readAt s ((k :: ks).dropLast) = some (.node false es)) →
      pathSet false s v (k :: ks) = some (s', b) → b = true ∧ pathGetLoop s' (k :: ks) = some v := by
  induction ks with
  | nil =>
    rintro k s s' b ⟨es, hes⟩ h
    simp only [List.dropLast_singleton, readAt, Option.some.injEq] at hes
    subst hes
    simp only [pathSet, Cfg.setItem, Option.map_some, Option.some.injEq, Prod.mk.injEq] at h
    obtain ⟨rfl, rfl⟩ := h
    simp [pathGetLoop, setItem_dict_step es k v hv]
  | cons k' ks ih =>
    rintro k s s' b ⟨es0, hes⟩ h
    simp only [pathSet, Bool.false_eq_true, if_false] at h
    rw [List.dropLast_cons_of_ne_nil (by simp)] at hes
    split at h
    · rename_i es
      simp only [readAt] at hes
      split at hes
      · cases hes
      · rename_i sub hsub
        rw [hsub] at h
        simp only at h
        split at h
        · cases h
        · rename_i sub' b' hrec
          simp only [Option.some.injEq, Prod.mk.injEq] at h
          obtain ⟨rfl, rfl⟩ := h
          obtain ⟨h1, h2⟩ := ih k' sub sub' b' ⟨es0, hes⟩ hrec
          refine ⟨h1, ?_⟩
          rw [pathGetLoop, setItem_dict_step es k sub' (pathSet_node hrec).1]
          exact h2
    · cases h

/-- Without overwriting: all dictionaries on the way. -/
theorem pathSet_succeeds (v : Cfg) (ks : List Key) :
    ∀ (k : Key) (s : Cfg), (∀ q, q <+: (k :: ks).dropLast → ∃ es, readAt s q = some (.node false es)) →
      ∃ s', pathSet false s v (k :: ks) = some (s', true) := by
  induction ks with
  | nil =>
    intro k s h
    obtain ⟨es, hes⟩ := h [] List.nil_prefix
    simp only [readAt, Option.some.injEq] at hes
    subst hes
    exact ⟨_, rfl⟩
  | cons k' ks ih =>
    intro k s h
    obtain ⟨es, hes⟩ := h [] List.nil_prefix
    simp only [readAt, Option.some.injEq] at hes
    subst hes
    rw [List.dropLast_cons_of_ne_nil (by simp)] at h
    have hk : ∃ sub, es.lookup k = some sub := by
      obtain ⟨es1, h1⟩ := h [k] (by simp [List.cons_prefix_cons])
      simp only [readAt] at h1
      split at h1
      · cases h1
      · rename_i sub hsub; exact ⟨sub, hsub⟩
    obtain ⟨sub, hsub⟩ := hk
    obtain ⟨sub', h'⟩ := ih k' sub (by
      intro q hq
      obtain ⟨es1, h1⟩ := h (k :: q) ((List.prefix_cons_inj k).mpr hq)
      simp only [readAt, hsub] at h1
      exact ⟨es1, h1⟩)
    exact ⟨.node false (setEntry es k sub'), by simp [pathSet, hsub, h']⟩

theorem pathSet_missing (v : Cfg) (ks : List Key) :
    ∀ (k : Key) (s s' : Cfg) (b : Bool), readAt s ((k :: ks).dropLast) = none →
      pathSet false s v (k :: ks) = some (s', b) → readAt s' [] = readAt s [] ∧ s' = s ∧ b = true := by
  have hempty : ∀ (ks : List Key) (k : Key), ∃ x, pathSet false Cfg.empty v (k :: ks) = some (x, true) := by
    intro ks
    induction ks with
    | nil => intro k; exact ⟨_, rfl⟩
    | cons k' ks ih =>
      intro k
      obtain ⟨x, hx⟩ := ih k'
      refine ⟨Cfg.empty, ?_⟩
      simp only [Cfg.empty] at hx
      simp [pathSet, Cfg.empty, hx]
  induction ks with
  | nil => intro k s s' b h _; simp [readAt] at h
  | cons k' ks ih =>
    intro k s s' b hr h
    have hs : s' = s ∧ b = true := by
      rw [List.dropLast_cons_of_ne_nil (by simp)] at hr
      simp only [pathSet, Bool.false_eq_true, if_false] at h
      split at h
      · rename_i es
        split at h
        · rename_i sub hsub
          split at h
          · cases h
          · rename_i sub' b' hrec
            simp only [readAt, hsub] at hr
            obtain ⟨_, h1, h2⟩ := ih k' sub sub' b' hr hrec
            simp only [Option.some.injEq, Prod.mk.injEq] at h
            obtain ⟨rfl, rfl⟩ := h
            refine ⟨?_, h2⟩
            rw [h1]
            congr 1
            clear h1 hrec hr ih
            induction es with
            | nil => simp [List.lookup] at hsub
            | cons e es ih =>
              obtain ⟨k0, v0⟩ := e
              by_cases hk : k = k0
              · subst hk; simp [List.lookup] at hsub; simp [setEntry, hsub]
              · have : (k == k0) = false := by simpa using hk
                simp only [List.lookup, this] at hsub
                simp [setEntry, hk, ih hsub]
        · obtain ⟨x, hx⟩ := hempty ks k'
          rw [hx] at h
          simp only [Option.some.injEq, Prod.mk.injEq] at h
          exact ⟨h.1.symm, h.2.symm⟩
      · cases h
    exact ⟨by rw [hs.1], hs⟩

theorem pathGet_eq_loop {s s' : Cfg} {q : List Key} (h : pathGetLoop s' q = pathGetLoop s q) : pathGet s' q = pathGet s q := by
  unfold pathGet; rw [h]

end GeNSIT
