import Verif.Cli.Spec
import Verif.Config.DeepLemmas
import Verif.Config.FlatLemmas
import Verif.Config.ValidateRead

/-! # Command line: helper lemmas -/

set_option linter.unusedSimpArgs false

namespace GeNSIT

open Spec

/-! ### One update, seen from a path that avoids its key -/

/-- Under a path without the key, the stored value is unchanged, or updated in one of the two ways. -/
theorem update_readAt (key : Key) (val : Cfg) (p : List Key) : ∀ (c : Cfg), key ∉ p →
    ((∃ f, (f = id ∨ f = deepUpdateValue key val ∨ f = deepUpdate key val) ∧
      readAt (deepUpdateValue key val c) p = (readAt c p).map f) ∧
     (∃ f, (f = id ∨ f = deepUpdateValue key val ∨ f = deepUpdate key val) ∧
      readAt (deepUpdate key val c) p = (readAt c p).map f)) := by
  induction p with
  | nil =>
    intro c _
    exact ⟨⟨_, Or.inr (Or.inl rfl), by simp [readAt_nil]⟩, ⟨_, Or.inr (Or.inr rfl), by simp [readAt_nil]⟩⟩
  | cons k ks ih =>
    intro c hp
    simp only [List.mem_cons, not_or] at hp
    cases c with
    | leaf a =>
      exact ⟨⟨id, Or.inl rfl, by simp [deepUpdateValue, readAt]⟩, ⟨id, Or.inl rfl, by simp [deepUpdate, readAt]⟩⟩
    | node l es =>
      cases l with
      | false =>
        have : ∃ f, (f = id ∨ f = deepUpdateValue key val ∨ f = deepUpdate key val) ∧
            readAt (.node false (deepUpdateEntries key val es)) (k :: ks) = (readAt (.node false es) (k :: ks)).map f := by
          simp only [readAt, deepUpdateEntries_lookup, Ne.symm hp.1, if_false]
          cases hl : es.lookup k with
          | none => exact ⟨id, Or.inl rfl, by simp⟩
          | some v => simpa using (ih v hp.2).1
        exact ⟨by simpa [deepUpdateValue] using this, by simpa [deepUpdate] using this⟩
      | true =>
        refine ⟨?_, ⟨id, Or.inl rfl, by simp [deepUpdate]⟩⟩
        simp only [deepUpdateValue, readAt, deepUpdateElems_lookup]
        cases hl : es.lookup k with
        | none => exact ⟨id, Or.inl rfl, by simp⟩
        | some v => simpa using (ih v hp.2).2

theorem outline_update (key : Key) (val c : Cfg) :
    outline (deepUpdateValue key val c) = outline c ∧ outline (deepUpdate key val c) = outline c := by
  cases c with
  | leaf a => exact ⟨rfl, rfl⟩
  | node l es =>
    cases l <;> simp [deepUpdateValue, deepUpdate, outline, deepUpdateEntries_keys, deepUpdateElems_keys]

theorem outline_readAt_update (key : Key) (val c : Cfg) {p : List Key} (h : key ∉ p) :
    (readAt (deepUpdate key val c) p).map outline = (readAt c p).map outline := by
  obtain ⟨f, hf, he⟩ := (update_readAt key val p c h).2
  rw [he]
  cases readAt c p with
  | none => rfl
  | some v =>
    rcases hf with rfl | rfl | rfl
    · rfl
    · simp [(outline_update key val v).1]
    · simp [(outline_update key val v).2]

theorem outline_list {c : Cfg} : (∃ ks, outline c = .container true ks) ↔ ∃ es, c = .node true es := by
  cases c with
  | leaf a => simp [outline]
  | node l es => cases l <;> simp [outline]

theorem outline_dict {c : Cfg} {ks : List Key} (h : outline c = .container false ks) :
    ∃ es, c = .node false es ∧ es.map Prod.fst = ks := by
  cases c with
  | leaf a => simp [outline] at h
  | node l es => simp only [outline, Outline.container.injEq] at h; exact ⟨es, by rw [h.1], h.2⟩

theorem listAt_iff {c : Cfg} {p : List Key} : ListAt c p ↔ ∃ ks, (readAt c p).map outline = some (.container true ks) := by
  constructor
  · rintro ⟨es, h⟩; exact ⟨_, by rw [h]; rfl⟩
  · rintro ⟨ks, h⟩
    rw [Option.map_eq_some_iff] at h
    obtain ⟨v, hv, ho⟩ := h
    obtain ⟨es, rfl⟩ := outline_list.mp ⟨ks, ho⟩
    exact ⟨es, hv⟩

/-- Two settings with the same outlines along a path. -/
theorem noNestedLists_congr {c d : Cfg} {p : List Key}
    (h : ∀ r, r <+: p → (readAt d r).map outline = (readAt c r).map outline) (hc : NoNestedLists c p) :
    NoNestedLists d p := by
  have hl : ∀ r, r <+: p → (ListAt d r ↔ ListAt c r) := by
    intro r hr; rw [listAt_iff, listAt_iff, h r hr]
  refine ⟨by rw [hl [] (List.nil_prefix)]; exact hc.1, fun r k hr => ?_⟩
  rw [hl r ((List.prefix_append r [k]).trans hr), hl _ hr]
  exact hc.2 r k hr

/-- Where no list lies directly in a list, the update reaches everything. -/
theorem update_reaches (key : Key) (val : Cfg) (p : List Key) : ∀ (c : Cfg), key ∉ p →
    (∀ r k, r ++ [k] <+: p → ¬ (ListAt c r ∧ ListAt c (r ++ [k]))) →
    readAt (deepUpdateValue key val c) p = (readAt c p).map (deepUpdateValue key val) := by
  induction p with
  | nil => intro c _ _; simp [readAt_nil]
  | cons k ks ih =>
    intro c hp hn
    simp only [List.mem_cons, not_or] at hp
    cases c with
    | leaf a => simp [deepUpdateValue, readAt]
    | node l es =>
      have sub : ∀ v, es.lookup k = some v → ∀ r k', r ++ [k'] <+: ks → ¬ (ListAt v r ∧ ListAt v (r ++ [k'])) := by
        intro v hv r k' hr hh
        refine hn (k :: r) k' ?_ ?_
        · simpa using hr
        · obtain ⟨⟨e1, h1⟩, ⟨e2, h2⟩⟩ := hh
          exact ⟨⟨e1, by simpa [readAt, hv] using h1⟩, ⟨e2, by simpa [readAt, hv] using h2⟩⟩
      cases l with
      | false =>
        simp only [deepUpdateValue, readAt, deepUpdateEntries_lookup, Ne.symm hp.1, if_false]
        cases hl : es.lookup k with
        | none => simp
        | some v => simpa using ih v hp.2 (sub v hl)
      | true =>
        simp only [deepUpdateValue, readAt, deepUpdateElems_lookup]
        cases hl : es.lookup k with
        | none => simp
        | some v =>
          simp only [Option.map_some]
          rw [deepUpdate_eq_value]
          · exact ih v hp.2 (sub v hl)
          · rintro es' rfl
            exact hn [] k (by simp) ⟨⟨es, rfl⟩, ⟨es', by simp [readAt, hl, readAt_nil]⟩⟩

/-- The update stores the value. -/
theorem update_sets (key : Key) (val c : Cfg) {q : List Key} (hq : key ∉ q) (hn : NoNestedLists c q)
    {ks : List Key} (hd : (readAt c q).map outline = some (.container false ks)) (hk : key ∈ ks) :
    readAt (deepUpdate key val c) (q ++ [key]) = some val := by
  have hroot : ∀ es, c ≠ .node true es := fun es h => hn.1 ⟨es, by rw [h]; rfl⟩
  rw [deepUpdate_eq_value key val c hroot, readAt_append, update_reaches key val q c hq hn.2]
  rw [Option.map_eq_some_iff] at hd
  obtain ⟨v, hv, ho⟩ := hd
  obtain ⟨es, rfl, he⟩ := outline_dict ho
  rw [hv]
  simp only [Option.map_some, Option.bind_some, deepUpdateValue, readAt, deepUpdateEntries_lookup, if_true]
  have : (es.lookup key).isSome := (lookup_isSome_iff es key).mpr (he ▸ hk)
  cases hl : es.lookup key with
  | none => simp [hl] at this
  | some z => simp [readAt_nil]

/-! ### A value without the key is left alone -/

theorem keyFree_child {key : Key} {l : Bool} {es : List (Key × Cfg)} (h : KeyFree key (.node l es)) {k : Key} {v : Cfg}
    (hv : es.lookup k = some v) : k ≠ key ∧ KeyFree key v := by
  refine ⟨fun he => h [k] (by simp [readAt, hv, readAt_nil]) (by simp [he]), fun p hp hk => ?_⟩
  exact h (k :: p) (by simpa [readAt, hv] using hp) (by simp [hk])

mutual
theorem update_keyFree (key : Key) (val : Cfg) : ∀ (c : Cfg), WellFormed c → KeyFree key c →
    deepUpdateValue key val c = c ∧ deepUpdate key val c = c
  | .leaf _, _, _ => ⟨rfl, rfl⟩
  | .node false es, hw, hf => by
    have := update_keyFreeEntries key val es (fun e he => (wf_child hw he).2)
      (fun e he => keyFree_child hf (wf_child hw he).1)
    exact ⟨by simp [deepUpdateValue, this], by simp [deepUpdate, this]⟩
  | .node true es, hw, hf => by
    have := update_keyFreeElems key val es (fun e he => (wf_child hw he).2)
      (fun e he => keyFree_child hf (wf_child hw he).1)
    exact ⟨by simp [deepUpdateValue, this], by simp [deepUpdate]⟩
theorem update_keyFreeEntries (key : Key) (val : Cfg) : ∀ (es : List (Key × Cfg)), (∀ e ∈ es, WellFormed e.2) →
    (∀ e ∈ es, e.1 ≠ key ∧ KeyFree key e.2) → deepUpdateEntries key val es = es
  | [], _, _ => rfl
  | (k, v) :: rest, hw, hf => by
    have h1 := hf (k, v) (by simp)
    simp only [deepUpdateEntries, deepUpdateEntry, h1.1, if_false]
    rw [(update_keyFree key val v (hw (k, v) (by simp)) h1.2).1,
      update_keyFreeEntries key val rest (fun e he => hw e (by simp [he])) (fun e he => hf e (by simp [he]))]
theorem update_keyFreeElems (key : Key) (val : Cfg) : ∀ (es : List (Key × Cfg)), (∀ e ∈ es, WellFormed e.2) →
    (∀ e ∈ es, e.1 ≠ key ∧ KeyFree key e.2) → deepUpdateElems key val es = es
  | [], _, _ => rfl
  | (k, v) :: rest, hw, hf => by
    have h1 := hf (k, v) (by simp)
    simp only [deepUpdateElems, deepUpdateElem]
    rw [(update_keyFree key val v (hw (k, v) (by simp)) h1.2).2,
      update_keyFreeElems key val rest (fun e he => hw e (by simp [he])) (fun e he => hf e (by simp [he]))]
end

theorem update_stays (key : Key) (val c : Cfg) {p : List Key} (hp : key ∉ p) {v : Cfg} (hv : readAt c p = some v)
    (hw : WellFormed v) (hf : KeyFree key v) : readAt (deepUpdate key val c) p = some v := by
  obtain ⟨f, hf', he⟩ := (update_readAt key val p c hp).2
  rw [he, hv]
  rcases hf' with rfl | rfl | rfl
  · rfl
  · simp [(update_keyFree key val v hw hf).1]
  · simp [(update_keyFree key val v hw hf).2]

/-! ### All the updates -/

theorem deepUpdates_outline (us : List (Key × Cfg)) : ∀ (c : Cfg) {p : List Key}, (∀ e ∈ us, e.1 ∉ p) →
    (readAt (deepUpdates c us) p).map outline = (readAt c p).map outline := by
  induction us with
  | nil => intro c p _; rfl
  | cons u us ih =>
    intro c p h
    show (readAt (deepUpdates (deepUpdate u.1 u.2 c) us) p).map outline = _
    rw [ih _ (fun e he => h e (by simp [he])), outline_readAt_update u.1 u.2 c (h u (by simp))]

theorem deepUpdates_stays (us : List (Key × Cfg)) : ∀ (c : Cfg) {p : List Key} {v : Cfg}, (∀ e ∈ us, e.1 ∉ p) →
    readAt c p = some v → WellFormed v → (∀ e ∈ us, KeyFree e.1 v) → readAt (deepUpdates c us) p = some v := by
  induction us with
  | nil => intro c p v _ h _ _; exact h
  | cons u us ih =>
    intro c p v h hv hw hf
    show readAt (deepUpdates (deepUpdate u.1 u.2 c) us) p = _
    exact ih _ (fun e he => h e (by simp [he])) (update_stays u.1 u.2 c (h u (by simp)) hv hw (hf u (by simp))) hw
      (fun e he => hf e (by simp [he]))

theorem deepUpdates_sets (us : List (Key × Cfg)) : ∀ (c : Cfg) {q : List Key} {key : Key} {v : Cfg} {ks : List Key},
    (us.map Prod.fst).Nodup → (key, v) ∈ us → (∀ e ∈ us, e.1 ∉ q) → NoNestedLists c q →
    (readAt c q).map outline = some (.container false ks) → key ∈ ks → WellFormed v → (∀ e ∈ us, KeyFree e.1 v) →
    readAt (deepUpdates c us) (q ++ [key]) = some v := by
  induction us with
  | nil => intro c q key v ks _ h; simp at h
  | cons u us ih =>
    intro c q key v ks hnd hm hq hn hd hk hw hf
    show readAt (deepUpdates (deepUpdate u.1 u.2 c) us) (q ++ [key]) = _
    simp only [List.map_cons, List.nodup_cons] at hnd
    rcases List.mem_cons.mp hm with h | h
    · subst h
      refine deepUpdates_stays us _ ?_ (update_sets key v c (hq (key, v) (by simp)) hn hd hk) hw (fun e he => hf e (by simp [he]))
      intro e he hmem
      rcases List.mem_append.mp hmem with h1 | h1
      · exact hq e (by simp [he]) h1
      · simp only [List.mem_singleton] at h1
        exact hnd.1 (h1 ▸ List.mem_map.mpr ⟨e, he, rfl⟩)
    · have hu : u.1 ∉ q := hq u (by simp)
      refine ih _ hnd.2 h (fun e he => hq e (by simp [he])) ?_ ?_ hk hw (fun e he => hf e (by simp [he]))
      · refine noNestedLists_congr (fun r hr => ?_) hn
        exact outline_readAt_update u.1 u.2 c (fun hm => hu (hr.subset hm))
      · rw [outline_readAt_update u.1 u.2 c hu, hd]

/-! ### The settings of a command -/

theorem toDict_of_nodup {xs : List (Key × Cfg)} (h : (xs.map Prod.fst).Nodup) (e : Key × Cfg) : e ∈ toDict xs ↔ e ∈ xs := by
  refine ⟨toDict_mem, fun he => ?_⟩
  obtain ⟨k, v⟩ := e
  have h1 : (toDict xs).lookup k = some v := by
    rw [toDict_lookup]
    exact lookup_of_mem (by rw [List.map_reverse]; exact List.nodup_reverse.mpr h) (by simpa using he)
  exact lookup_mem h1

theorem mem_setEntry {es : List (Key × Cfg)} (hn : (es.map Prod.fst).Nodup) (k : Key) (v : Cfg) (e : Key × Cfg) :
    e ∈ setEntry es k v ↔ e = (k, v) ∨ (e ∈ es ∧ e.1 ≠ k) := by
  have hn' := setEntry_nodup hn k v
  obtain ⟨a, b⟩ := e
  constructor
  · intro h
    have := lookup_of_mem hn' h
    by_cases hk : a = k
    · subst hk; rw [lookup_setEntry_self] at this; left; simpa using this.symm
    · rw [lookup_setEntry_ne _ _ hk] at this; right; exact ⟨lookup_mem this, hk⟩
  · rintro (h | ⟨h, hk⟩)
    · rw [Prod.mk.injEq] at h; rw [h.1, h.2]; exact lookup_mem (lookup_setEntry_self es k v)
    · exact lookup_mem (by rw [lookup_setEntry_ne _ _ hk]; exact lookup_of_mem hn h)

theorem names_defaults (cmd : Command) : (commandDefaults cmd).map Prod.fst = optionNames cmd := by
  cases cmd <;> rfl

theorem upperSingle_names (cmd : Command) : ∀ s ∈ optionNames cmd, upperSingle s = settingOf s := by
  cases cmd <;> decide +kernel

theorem settingOf_nodup (cmd : Command) : ((optionNames cmd).map settingOf).Nodup := by
  cases cmd <;> decide +kernel

/-- Kept by the filters of a command. -/
def keptBy (cmd : Command) (v : Cfg) : Bool := !v.isNull && (cmd == .create || !v.isEmptySized)

theorem gather_eq (cmd : Command) (args : List (String × Cfg)) :
    gatherSettings cmd args = toDict ((args.filter fun e => keptBy cmd e.2).map fun e => (Key.str (upperSingle e.1), e.2)) := by
  unfold gatherSettings keptBy
  cases cmd
  · simp
  · simp only [List.filter_filter]
    congr 3; funext e; cases e.2.isNull <;> cases e.2.isEmptySized <;> rfl
  · simp only [List.filter_filter]
    congr 3; funext e; cases e.2.isNull <;> cases e.2.isEmptySized <;> rfl

theorem clickArgs_names (cmd : Command) (given : List (String × Cfg)) :
    (clickArgs cmd given).map Prod.fst = optionNames cmd := by
  rw [← names_defaults, clickArgs, List.map_map]; rfl

theorem gather_nodup (cmd : Command) (given : List (String × Cfg)) :
    ((((clickArgs cmd given).filter fun e => keptBy cmd e.2).map fun e => (Key.str (upperSingle e.1), e.2)).map
      Prod.fst).Nodup := by
  rw [List.map_map]
  have h1 : ((clickArgs cmd given).map fun e => Key.str (upperSingle e.1)).Nodup := by
    have h2 : ((clickArgs cmd given).map fun e => Key.str (upperSingle e.1)) =
        ((optionNames cmd).map settingOf).map Key.str := by
      rw [← clickArgs_names cmd given]
      simp only [List.map_map]
      apply List.map_congr_left
      intro e he
      simp only [Function.comp]
      rw [upperSingle_names cmd e.1 (by rw [← clickArgs_names cmd given]; exact List.mem_map.mpr ⟨e, he, rfl⟩)]
    rw [h2]
    exact (settingOf_nodup cmd).map (fun a b h => by simpa using h)
  exact h1.sublist (List.Sublist.map _ List.filter_sublist)

theorem mem_gather (cmd : Command) (given : List (String × Cfg)) (e : Key × Cfg) :
    e ∈ gatherSettings cmd (clickArgs cmd given) ↔
      ∃ s v, (s, v) ∈ clickArgs cmd given ∧ keptBy cmd v = true ∧ e = (.str (settingOf s), v) := by
  rw [gather_eq, toDict_of_nodup (gather_nodup cmd given)]
  simp only [List.mem_map, List.mem_filter]
  constructor
  · rintro ⟨⟨s, v⟩, ⟨h1, h2⟩, rfl⟩
    refine ⟨s, v, h1, h2, ?_⟩
    rw [upperSingle_names cmd s (by rw [← clickArgs_names cmd given]; exact List.mem_map.mpr ⟨_, h1, rfl⟩)]
  · rintro ⟨s, v, h1, h2, rfl⟩
    refine ⟨(s, v), ⟨h1, h2⟩, ?_⟩
    simp only
    rw [upperSingle_names cmd s (by rw [← clickArgs_names cmd given]; exact List.mem_map.mpr ⟨_, h1, rfl⟩)]

theorem gather_keys_nodup (cmd : Command) (given : List (String × Cfg)) :
    ((gatherSettings cmd (clickArgs cmd given)).map Prod.fst).Nodup := by
  rw [gather_eq]; exact toDict_nodup _

theorem mem_updateSettings {s : List (Key × Cfg)} (hn : (s.map Prod.fst).Nodup) (e : Key × Cfg) :
    e ∈ updateSettings s ↔ e = (.str "sample", .node true []) ∨
      (e.1 ≠ .str "sample" ∧ (e = (.str "n_workers", (s.lookup (.str "n_workers")).getD (.leaf (.num 1))) ∨
        (e.1 ≠ .str "n_workers" ∧ (e = (.str "n_threads", (s.lookup (.str "n_threads")).getD (.leaf .null)) ∨
          (e.1 ≠ .str "n_threads" ∧ e ∈ s))))) := by
  unfold updateSettings
  have h1 := setEntry_nodup hn (.str "n_threads") ((s.lookup (.str "n_threads")).getD (.leaf .null))
  have hl : (setEntry s (.str "n_threads") ((s.lookup (.str "n_threads")).getD (.leaf .null))).lookup (.str "n_workers") =
      s.lookup (.str "n_workers") := lookup_setEntry_ne _ _ (by simp)
  simp only [hl]
  rw [mem_setEntry (setEntry_nodup h1 _ _), mem_setEntry h1, mem_setEntry hn]
  tauto

theorem updateSettings_nodup {s : List (Key × Cfg)} (hn : (s.map Prod.fst).Nodup) :
    ((updateSettings s).map Prod.fst).Nodup :=
  setEntry_nodup (setEntry_nodup (setEntry_nodup hn _ _) _ _) _ _

theorem commandSettings_nodup (cmd : Command) (given : List (String × Cfg)) :
    ((commandSettings cmd given).map Prod.fst).Nodup := by
  have h := updateSettings_nodup (gather_keys_nodup cmd given)
  unfold commandSettings
  cases cmd
  · exact h
  · exact h
  · exact setEntry_nodup (setEntry_nodup h _ _) _ _

theorem mem_commandSettings (cmd : Command) (given : List (String × Cfg)) (e : Key × Cfg) :
    e ∈ commandSettings cmd given ↔
      (cmd = .optimise ∧ (e = (.str "export_metadata", .leaf (.bool false)) ∨ e = (.str "export_samples", .leaf (.bool false)))) ∨
      ((cmd = .optimise → e.1 ≠ .str "export_metadata" ∧ e.1 ≠ .str "export_samples") ∧
        e ∈ updateSettings (gatherSettings cmd (clickArgs cmd given))) := by
  have h := updateSettings_nodup (gather_keys_nodup cmd given)
  unfold commandSettings
  cases cmd
  · simp
  · simp
  · show e ∈ setEntry (setEntry _ _ _) _ _ ↔ _
    rw [mem_setEntry (setEntry_nodup h _ _), mem_setEntry h]
    constructor
    · rintro (h1 | ⟨h1 | ⟨h1, h2⟩, h3⟩)
      · exact Or.inl ⟨rfl, Or.inl h1⟩
      · exact Or.inl ⟨rfl, Or.inr h1⟩
      · exact Or.inr ⟨fun _ => ⟨h3, h2⟩, h1⟩
    · rintro (⟨_, h1 | h1⟩ | ⟨h1, h2⟩)
      · exact Or.inl h1
      · exact Or.inr ⟨Or.inl h1, by rw [h1]; simp⟩
      · exact Or.inr ⟨Or.inr ⟨h2, (h1 rfl).2⟩, (h1 rfl).1⟩

theorem lookup_of_mem_str {xs : List (String × Cfg)} (hn : (xs.map Prod.fst).Nodup) {s : String} {v : Cfg}
    (h : (s, v) ∈ xs) : xs.lookup s = some v := by
  induction xs with
  | nil => simp at h
  | cons x xs ih =>
    obtain ⟨s', v'⟩ := x
    simp only [List.map_cons, List.nodup_cons] at hn
    rcases List.mem_cons.mp h with h | h
    · simp only [Prod.mk.injEq] at h; simp [h.1, h.2]
    · have : s ≠ s' := fun he => hn.1 (he ▸ List.mem_map.mpr ⟨_, h, rfl⟩)
      have hb : (s == s') = false := by simpa using this
      rw [List.lookup_cons, hb]; exact ih hn.2 h

theorem optionNames_nodup (cmd : Command) : (optionNames cmd).Nodup := by cases cmd <;> decide +kernel

theorem mem_clickArgs (cmd : Command) (given : List (String × Cfg)) (s : String) (v : Cfg) :
    (s, v) ∈ clickArgs cmd given ↔ ∃ d, (s, d) ∈ commandDefaults cmd ∧ v = (given.lookup s).getD d := by
  unfold clickArgs
  simp only [List.mem_map, Prod.mk.injEq]
  constructor
  · rintro ⟨⟨a, d⟩, h, rfl, rfl⟩; exact ⟨d, h, rfl⟩
  · rintro ⟨d, h, rfl⟩; exact ⟨(s, d), h, rfl, rfl⟩

theorem kept_of_substantial (cmd : Command) {v : Cfg} (h : Substantial v) : keptBy cmd v = true := by
  obtain ⟨h1, h2, h3⟩ := h
  unfold keptBy
  cases v with
  | leaf a =>
    cases a with
    | str s =>
      have : s ≠ "" := fun he => h2 (by rw [he])
      simp [Cfg.isNull, Cfg.isEmptySized, this]
    | null => simp at h1
    | num x => simp [Cfg.isNull, Cfg.isEmptySized]
    | bool b => simp [Cfg.isNull, Cfg.isEmptySized]
  | node l es =>
    have : es ≠ [] := fun he => h3 l (by rw [he])
    simp [Cfg.isNull, Cfg.isEmptySized, this]

/-- The entry of the settings that an option leads to. -/
theorem mem_of_arg (cmd : Command) (given : List (String × Cfg)) {s : String} {v : Cfg} (hm : (s, v) ∈ clickArgs cmd given)
    (hk : keptBy cmd v = true) : (Key.str (settingOf s), v) ∈ commandSettings cmd given := by
  have hg : (Key.str (settingOf s), v) ∈ gatherSettings cmd (clickArgs cmd given) :=
    (mem_gather cmd given _).mpr ⟨s, v, hm, hk, rfl⟩
  have hl := lookup_of_mem (gather_keys_nodup cmd given) hg
  have hs : s ∈ optionNames cmd := by rw [← clickArgs_names cmd given]; exact List.mem_map.mpr ⟨_, hm, rfl⟩
  have h1 : ∀ s ∈ optionNames cmd, settingOf s ≠ "sample" ∧ settingOf s ≠ "export_metadata" ∧ settingOf s ≠ "export_samples" := by
    cases cmd <;> decide +kernel
  obtain ⟨h2, h3, h4⟩ := h1 s hs
  rw [mem_commandSettings]
  refine Or.inr ⟨fun _ => ⟨by simpa using h3, by simpa using h4⟩, ?_⟩
  rw [mem_updateSettings (gather_keys_nodup cmd given)]
  refine Or.inr ⟨by simpa using h2, ?_⟩
  by_cases hw : settingOf s = "n_workers"
  · left; rw [← hw, hl]; rfl
  · refine Or.inr ⟨by simpa using hw, ?_⟩
    by_cases ht : settingOf s = "n_threads"
    · left; rw [← ht, hl]; rfl
    · exact Or.inr ⟨by simpa using ht, hg⟩

theorem defaults_kept (cmd : Command) : ∀ e ∈ commandDefaults cmd, keptBy cmd e.2 = true → e.1 ∈ alwaysOverwritten cmd := by
  cases cmd <;> decide +kernel

theorem always_base (cmd : Command) : "sample" ∈ alwaysOverwritten cmd ∧ "n_workers" ∈ alwaysOverwritten cmd ∧
    "n_threads" ∈ alwaysOverwritten cmd := by cases cmd <;> decide +kernel

theorem always_setting (cmd : Command) : ∀ s ∈ alwaysOverwritten cmd, settingOf s = s := by
  cases cmd <;> decide +kernel

theorem mem_lookup_str {xs : List (String × Cfg)} {s : String} {v : Cfg} (h : xs.lookup s = some v) : (s, v) ∈ xs := by
  induction xs with
  | nil => simp at h
  | cons x xs ih =>
    obtain ⟨s', v'⟩ := x
    rw [List.lookup_cons] at h
    by_cases hs : s = s'
    · subst hs; simp at h; simp [h]
    · have : (s == s') = false := by simpa using hs
      rw [this] at h; exact List.mem_cons_of_mem _ (ih h)

/-- Only the settings named by the specification are overwritten. -/
theorem overwritten_of_mem (cmd : Command) (given : List (String × Cfg)) {e : Key × Cfg}
    (h : e ∈ commandSettings cmd given) : Overwritten cmd given e.1 := by
  have hb := always_base cmd
  rw [mem_commandSettings] at h
  rcases h with ⟨rfl, h | h⟩ | ⟨_, h⟩
  · exact Or.inl ⟨"export_metadata", by decide +kernel, by rw [h]⟩
  · exact Or.inl ⟨"export_samples", by decide +kernel, by rw [h]⟩
  · rw [mem_updateSettings (gather_keys_nodup cmd given)] at h
    rcases h with h | ⟨_, h | ⟨_, h | ⟨_, h⟩⟩⟩
    · exact Or.inl ⟨_, hb.1, by rw [h]⟩
    · exact Or.inl ⟨_, hb.2.1, by rw [h]⟩
    · exact Or.inl ⟨_, hb.2.2, by rw [h]⟩
    · rw [mem_gather] at h
      obtain ⟨s, v, h1, h2, rfl⟩ := h
      rw [mem_clickArgs] at h1
      obtain ⟨d, h3, h4⟩ := h1
      cases hl : given.lookup s with
      | some w => exact Or.inr ⟨(s, w), mem_lookup_str hl, rfl⟩
      | none =>
        rw [hl] at h4
        simp only [Option.getD_none] at h4
        subst h4
        have := defaults_kept cmd _ h3 h2
        exact Or.inl ⟨s, this, by rw [always_setting cmd s this]⟩

/-! ### The device -/

theorem getItem_node {c : Cfg} {k : Key} {v w x : Cfg} (h : c.getItem k = some v) (hs : v.setItem (.str "device") w = some x) :
    ∃ l es, c = .node l es ∧ es.lookup k = some v := by
  cases c with
  | node l es => exact ⟨l, es, rfl, h⟩
  | leaf a =>
    cases a with
    | str t =>
      cases k with
      | idx i =>
        simp only [Cfg.getItem, Option.map_eq_some_iff] at h
        obtain ⟨ch, _, rfl⟩ := h
        simp [Cfg.setItem] at hs
      | str s => simp [Cfg.getItem] at h
    | _ => simp [Cfg.getItem] at h

end GeNSIT
