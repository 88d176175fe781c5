import Verif.Config.ValidatePos
import Verif.Config.Props

/-!
# Reading and writing trees without the text `not-found`
-/

namespace GeNSIT.Spec

open GeNSIT

/-- A tree as read from a JSON or TOML file (the keys of dictionaries are strings), in which the text `not-found` (the code's mark of a missing value) does not occur as a value. -/
structure Clean (c : Cfg) : Prop where
  wf : WellFormed c
  noMark : ∀ p, readAt c p ≠ some (.leaf (.str "not-found"))
  names : ∀ p es, readAt c p = some (.node false es) → ∀ e ∈ es, ∃ n, e.1 = .str n

end GeNSIT.Spec

namespace GeNSIT

open Spec

theorem readAt_append (p q : List Key) : ∀ s : Cfg, readAt s (p ++ q) = (readAt s p).bind fun v => readAt v q := by
  induction p with
  | nil => intro s; rw [readAt_nil]; rfl
  | cons k ks ih =>
    intro s
    cases s with
    | leaf a => rfl
    | node l es =>
      simp only [List.cons_append, readAt]
      cases es.lookup k with
      | none => rfl
      | some v => exact ih v

theorem clean_child {l : Bool} {es : List (Key × Cfg)} (h : Clean (.node l es)) {k : Key} {v : Cfg} (hv : es.lookup k = some v) :
    Clean v := by
  refine ⟨(wf_child h.wf (lookup_mem hv)).2, fun p hp => h.noMark (k :: p) ?_, fun p es' hp => h.names (k :: p) es' ?_⟩
  · simp only [readAt, hv]; exact hp
  · simp only [readAt, hv]; exact hp

theorem clean_read {s v : Cfg} {p : List Key} (h : Clean s) (hv : readAt s p = some v) : Clean v := by
  refine ⟨fun q l es hq => h.wf (p ++ q) l es ?_, fun q hq => h.noMark (p ++ q) ?_,
    fun q es hq => h.names (p ++ q) es ?_⟩
  · rw [readAt_append, hv]; exact hq
  · rw [readAt_append, hv]; exact hq
  · rw [readAt_append, hv]; exact hq

theorem clean_notMark {s : Cfg} (h : Clean s) : s.isNotFound = false := by
  cases hs : s.isNotFound with
  | false => rfl
  | true =>
    exfalso
    rw [isNotFound_iff] at hs
    exact h.noMark [] (by rw [readAt_nil, hs])

theorem list_no_str {es : List (Key × Cfg)} (h : WellFormed (.node true es)) (n : String) : es.lookup (.str n) = none := by
  cases hk : es.lookup (.str n) with
  | none => rfl
  | some w =>
    exfalso
    have h1 := (h [] true es rfl).2 rfl
    have h2 : Key.str n ∈ es.map Prod.fst := (lookup_isSome_iff es _).1 (by rw [hk]; rfl)
    rw [h1] at h2
    obtain ⟨i, _, hi⟩ := List.mem_map.1 h2
    cases hi

theorem loop_leaf (r : List Key) : ∀ (a : Atom) (n : String), pathGetLoop (.leaf a) (r ++ [.str n]) = none := by
  induction r with
  | nil =>
    intro a n
    rw [List.nil_append, pathGetLoop]
    have : pathGetStep (.leaf a) (.str n) = none := by
      unfold pathGetStep
      split
      · rfl
      · cases a <;> rfl
    rw [this]
  | cons k r ih =>
    intro a n
    have hst : pathGetStep (.leaf a) k = none ∨ ∃ a', pathGetStep (.leaf a) k = some (.leaf a') := by
      unfold pathGetStep
      by_cases hk : k = .str "sweep"
      · rw [if_pos hk]; exact Or.inl rfl
      · rw [if_neg hk]
        cases a with
        | str t =>
          cases k with
          | str m => exact Or.inl rfl
          | idx i =>
            simp only [Cfg.getItem]
            cases t.toList[i]? with
            | none => exact Or.inl rfl
            | some ch => exact Or.inr ⟨_, rfl⟩
        | num x => exact Or.inl rfl
        | bool b => exact Or.inl rfl
        | null => exact Or.inl rfl
    rw [List.cons_append, pathGetLoop]
    rcases hst with hst | ⟨a', hst⟩
    · rw [hst]
    · rw [hst]; exact ih a' n

theorem step_clean {l : Bool} {es : List (Key × Cfg)} (h : Clean (.node l es)) (k : Key) :
    pathGetStep (.node l es) k = es.lookup k := by
  unfold pathGetStep
  split
  · rename_i hk
    subst hk
    cases l with
    | true => rw [list_no_str h.wf]
    | false =>
      simp only
      cases hv : es.lookup (.str "sweep") with
      | none => rfl
      | some v => simp only [clean_notMark (clean_child h hv), Bool.false_eq_true, if_false]
  · rfl

theorem loop_clean (r : List Key) : ∀ (s : Cfg) (n : String), Clean s →
    pathGetLoop s (r ++ [.str n]) = readAt s (r ++ [.str n]) := by
  induction r with
  | nil =>
    intro s n h
    cases s with
    | leaf a => rw [loop_leaf]; rfl
    | node l es =>
      rw [List.nil_append, pathGetLoop, step_clean h]
      simp only [readAt]
      cases es.lookup (.str n) with
      | none => rfl
      | some v => simp only [pathGetLoop]
  | cons k r ih =>
    intro s n h
    cases s with
    | leaf a => rw [loop_leaf]; rfl
    | node l es =>
      rw [List.cons_append, pathGetLoop, step_clean h]
      simp only [readAt]
      cases hv : es.lookup k with
      | none => rfl
      | some v => exact ih v n (clean_child h hv)

/-- A path that ends in a name. -/
def EndsInName (p : List Key) : Prop := ∃ r n, p = r ++ [.str n]

theorem EndsInName.ne {p : List Key} (h : EndsInName p) : p ≠ [] := by
  obtain ⟨r, n, rfl⟩ := h; simp

theorem endsInName_snoc (p : List Key) (n : String) : EndsInName (p ++ [.str n]) := ⟨p, n, rfl⟩

theorem pathGet_clean {s : Cfg} (h : Clean s) {p : List Key} (hp : EndsInName p) : pathGet s p = readAt s p := by
  obtain ⟨r, n, rfl⟩ := hp
  unfold pathGet
  have : (r ++ [Key.str n]).isEmpty = false := by simp
  rw [this, loop_clean r s n h]
  simp only [Bool.false_eq_true, if_false]
  cases hv : readAt s (r ++ [.str n]) with
  | none => rfl
  | some v => simp only [clean_notMark (clean_read h hv), Bool.false_eq_true, if_false]

theorem pathVal_clean {s : Cfg} (h : Clean s) {p : List Key} (hp : EndsInName p) :
    pathVal s p = (readAt s p).getD (.leaf .null) := by
  obtain ⟨r, n, rfl⟩ := hp
  unfold pathVal
  have : (r ++ [Key.str n]).isEmpty = false := by simp
  rw [this, loop_clean r s n h]
  rfl

/-! ### Writing -/

theorem clean_node {l : Bool} {es : List (Key × Cfg)} (hn : (es.map Prod.fst).Nodup)
    (hl : l = true → es.map Prod.fst = (List.range es.length).map Key.idx) (hc : ∀ e ∈ es, Clean e.2)
    (hk : l = false → ∀ e ∈ es, ∃ n, e.1 = .str n) : Clean (.node l es) := by
  refine ⟨fun p l' es' hp => ?_, fun p hp => ?_, fun p es' hp => ?_⟩
  · cases p with
    | nil =>
      simp only [readAt, Option.some.injEq, Cfg.node.injEq] at hp
      obtain ⟨rfl, rfl⟩ := hp
      exact ⟨hn, hl⟩
    | cons k p =>
      simp only [readAt] at hp
      split at hp
      · cases hp
      · rename_i v hv
        exact (hc _ (lookup_mem hv)).wf p l' es' hp
  · cases p with
    | nil => simp [readAt] at hp
    | cons k p =>
      simp only [readAt] at hp
      split at hp
      · cases hp
      · rename_i v hv
        exact (hc _ (lookup_mem hv)).noMark p hp
  · cases p with
    | nil =>
      simp only [readAt, Option.some.injEq, Cfg.node.injEq] at hp
      obtain ⟨rfl, rfl⟩ := hp
      exact hk rfl
    | cons k p =>
      simp only [readAt] at hp
      split at hp
      · cases hp
      · rename_i v hv
        exact (hc _ (lookup_mem hv)).names p es' hp

theorem setEntry_mem {es : List (Key × Cfg)} {k : Key} {v : Cfg} {e : Key × Cfg} (h : e ∈ setEntry es k v) :
    e = (k, v) ∨ e ∈ es := by
  induction es with
  | nil => simp [setEntry] at h; exact Or.inl h
  | cons e' rest ih =>
    obtain ⟨k', v'⟩ := e'
    simp only [setEntry] at h
    split at h
    · rename_i hk
      subst hk
      rcases List.mem_cons.1 h with h | h
      · exact Or.inl h
      · exact Or.inr (by simp [h])
    · rcases List.mem_cons.1 h with h | h
      · exact Or.inr (by simp [h])
      · rcases ih h with h | h
        · exact Or.inl h
        · exact Or.inr (by simp [h])

theorem clean_setEntry {es : List (Key × Cfg)} (h : Clean (.node false es)) (k : Key) {v : Cfg} (hv : Clean v)
    (hk : (es.lookup k).isSome) : Clean (.node false (setEntry es k v)) := by
  apply clean_node
  · have hkeys : (setEntry es k v).map Prod.fst = es.map Prod.fst := by
      rw [setEntry_keys]; simp [(lookup_isSome_iff es k).1 hk]
    rw [hkeys]; exact (h.wf [] false es rfl).1
  · intro h; cases h
  · intro e he
    rcases setEntry_mem he with rfl | he
    · exact hv
    · exact clean_child h (lookup_of_mem (h.wf [] false es rfl).1 (show (e.1, e.2) ∈ es from he))
  · intro _ e he
    rcases setEntry_mem he with rfl | he
    · obtain ⟨v', hv'⟩ := Option.isSome_iff_exists.1 hk
      exact h.names [] es rfl (k, v') (lookup_mem hv')
    · exact h.names [] es rfl e he

/-- Writing at a path of names at which something is stored. -/
theorem pathSet_clean (v : Cfg) (hv : Clean v) (p : List Key) : ∀ (s : Cfg), Clean s → p ≠ [] → (∀ k ∈ p, ∃ n, k = .str n) →
    (readAt s p).isSome → ∃ s', pathSet false s v p = some (s', true) ∧ Clean s' ∧ (∀ r, readAt s' (p ++ r) = readAt v r) ∧
      ∀ q, Unrelated p q → readAt s' q = readAt s q := by
  induction p with
  | nil => intro s _ h; exact absurd rfl h
  | cons k ks ih =>
    intro s hs _ hn hr
    obtain ⟨n, rfl⟩ := hn k (by simp)
    cases s with
    | leaf a => simp [readAt] at hr
    | node l es =>
      simp only [readAt] at hr
      cases hk : es.lookup (.str n) with
      | none => rw [hk] at hr; cases hr
      | some sub =>
        rw [hk] at hr
        have hl : l = false := by
          cases l with
          | false => rfl
          | true => rw [list_no_str hs.wf] at hk; cases hk
        subst hl
        cases ks with
        | nil =>
          refine ⟨.node false (setEntry es (.str n) v), rfl, clean_setEntry hs _ hv (by rw [hk]; rfl), fun r => ?_, fun q hq => ?_⟩
          · simp only [List.cons_append, List.nil_append, readAt, lookup_setEntry_self]
          · cases q with
            | nil => exact absurd List.nil_prefix hq.2
            | cons k2 q =>
              have hne : k2 ≠ .str n := by rintro rfl; exact hq.1 (by simp)
              simp only [readAt, lookup_setEntry_ne es v hne]
        | cons k' ks =>
          obtain ⟨sub', h1, h2, h3, h4⟩ := ih sub (clean_child hs hk) (by simp) (fun a ha => hn a (by simp [List.mem_cons.1 ha])) hr
          refine ⟨.node false (setEntry es (.str n) sub'), ?_, clean_setEntry hs _ h2 (by rw [hk]; rfl), fun r => ?_, fun q hq => ?_⟩
          · simp [pathSet, hk, h1]
          · rw [List.cons_append]
            simp only [readAt, lookup_setEntry_self]
            exact h3 r
          · cases q with
            | nil => exact absurd List.nil_prefix hq.2
            | cons k2 q =>
              by_cases hne : k2 = .str n
              · subst hne
                simp only [readAt, lookup_setEntry_self, hk]
                exact h4 q ⟨fun h => hq.1 ((List.prefix_cons_inj _).2 h), fun h => hq.2 ((List.prefix_cons_inj _).2 h)⟩
              · simp only [readAt, lookup_setEntry_ne es sub' hne]

/-- Writing through a list raises. -/
theorem pathSet_through_list (v : Cfg) (p : List Key) : ∀ (s : Cfg), Clean s → EndsInName p → (∃ i, Key.idx i ∈ p) →
    (readAt s p).isSome → pathSet false s v p = none := by
  induction p with
  | nil => intro s _ h; exact absurd rfl h.ne
  | cons k ks ih =>
    intro s hs he hi hr
    cases s with
    | leaf a => simp [readAt] at hr
    | node l es =>
      simp only [readAt] at hr
      cases hk : es.lookup k with
      | none => rw [hk] at hr; cases hr
      | some sub =>
        rw [hk] at hr
        cases ks with
        | nil =>
          exfalso
          obtain ⟨i, hi⟩ := hi
          obtain ⟨r, n, h⟩ := he
          have : k = .str n := by
            have := congrArg List.getLast? h; simpa using this
          subst this
          simp at hi
        | cons k' ks =>
          have he' : EndsInName (k' :: ks) := by
            obtain ⟨r, n, h⟩ := he
            cases r with
            | nil => simp at h
            | cons a r => exact ⟨r, n, by simpa using (List.cons.inj h).2⟩
          cases l with
          | true => simp [pathSet]
          | false =>
            have hks : ∃ i, Key.idx i ∈ (k' :: ks) := by
              obtain ⟨i, hi⟩ := hi
              rcases List.mem_cons.1 hi with h | h
              · exfalso
                obtain ⟨n, hn⟩ := hs.names [] es rfl (k, sub) (lookup_mem hk)
                rw [show (k, sub).1 = k from rfl, ← h] at hn
                cases hn
              · exact ⟨i, h⟩
            have := ih sub (clean_child hs hk) he' hks hr
            simp [pathSet, hk, this]

end GeNSIT
