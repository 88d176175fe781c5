import Verif.Summary.Model
import Mathlib.Data.List.Induction
import Mathlib.Data.List.Nodup

/-!
# The summary table holds, in the row of a sweep setting, the values computed for it (C124)
-/

set_option linter.unusedSimpArgs false
set_option linter.unusedVariables false

namespace GeNSIT

/-! ## Specification -/

/-- The successful evaluations of a list of operations: each expression is evaluated with the results before it in scope; those that
fail leave no result. -/
inductive Spec.Evaluates {D : Type} (eval : List (String × EvalResult D) → String → Option (EvalResult D)) :
    List (String × String) → List (String × String × EvalResult D) → Prop where
  | nil : Spec.Evaluates eval [] []
  | fails {ops done name expr} (h : Spec.Evaluates eval ops done) (hf : eval (done.map fun x => (x.1, x.2.2)) expr = none) :
      Spec.Evaluates eval (ops ++ [(name, expr)]) done
  | succeeds {ops done name expr r} (h : Spec.Evaluates eval ops done) (hs : eval (done.map fun x => (x.1, x.2.2)) expr = some r) :
      Spec.Evaluates eval (ops ++ [(name, expr)]) (done ++ [(name, expr, r)])

/-- The id of a sweep setting. -/
def Spec.rowId (sweep : List (String × String)) : String := " & ".intercalate (sweep.map fun kv => kv.1 ++ "_" ++ kv.2)

/-- A result has a value for the sweep setting with this id. -/
def Spec.HasSetting {D : Type} (r : EvalResult D) (sid : String) (sweep : List (String × String)) (d : D) : Prop :=
  ∃ groups, r = .swept groups ∧ (sweep, d) ∈ groups ∧ Spec.rowId sweep = sid

/-- Some result has a value for the sweep setting with this id. -/
def Spec.HasRow {D : Type} (done : List (String × String × EvalResult D)) (sid : String) : Prop :=
  ∃ x ∈ done, ∃ sweep d, Spec.HasSetting x.2.2 sid sweep d

/-- What the row of a sweep setting should hold under a name: the value the named operation has for the setting; if the operation has one
value for all settings, that value, provided an earlier operation has a value for the setting. -/
def Spec.RowHolds {D : Type} (done : List (String × String × EvalResult D)) (sid name : String) (d : D) : Prop :=
  ∃ pre expr r post, done = pre ++ (name, expr, r) :: post ∧
    ((∃ sweep, Spec.HasSetting r sid sweep d) ∨ ((r = .array d ∨ r = .other d) ∧ Spec.HasRow pre sid))

/-- The names do not clash: sweep keys are pairwise different, none is called `sweep`, and none is the name of an operation or of the
column of its expression; within one result the settings have different ids. -/
structure Spec.NamesClean {D : Type} (names : List String) (done : List (String × String × EvalResult D)) : Prop where
  settings : ∀ x ∈ done, ∀ groups, x.2.2 = .swept groups → (groups.map fun g => Spec.rowId g.1).Nodup
  keys : ∀ x ∈ done, ∀ groups, x.2.2 = .swept groups → ∀ g ∈ groups, (g.1.map (·.1)).Nodup ∧
    ∀ k ∈ g.1.map (·.1), k ≠ "sweep" ∧ k ∉ names ∧ ∀ n ∈ names, k ≠ n ++ "_expression"
  exprs : ∀ n ∈ names, ∀ m ∈ names, n ≠ m ++ "_expression"

/-! ## Lemmas -/

theorem Spec.holds_append {D : Type} (done : List (String × String × EvalResult D)) (n e : String) (r : EvalResult D) (sid name : String) (d : D) :
    Spec.RowHolds (done ++ [(n, e, r)]) sid name d ↔ Spec.RowHolds done sid name d ∨
      (name = n ∧ ((∃ sweep, Spec.HasSetting r sid sweep d) ∨ ((r = .array d ∨ r = .other d) ∧ Spec.HasRow done sid))) := by
  constructor
  · rintro ⟨pre, expr, r', post, h, hd⟩
    rcases List.eq_nil_or_concat post with rfl | ⟨post', x, rfl⟩
    · have := List.append_inj' h (by simp)
      obtain ⟨rfl, h2⟩ := this
      simp only [List.cons.injEq, Prod.mk.injEq, and_true] at h2
      obtain ⟨rfl, rfl, rfl⟩ := h2
      exact Or.inr ⟨rfl, hd⟩
    · left
      rw [List.concat_eq_append, ← List.cons_append, ← List.append_assoc] at h
      obtain ⟨h1, _⟩ := List.append_inj' h (by simp)
      exact ⟨pre, expr, r', post', h1, hd⟩
  · rintro (⟨pre, expr, r', post, rfl, hd⟩ | ⟨rfl, hd⟩)
    · exact ⟨pre, expr, r', post ++ [(n, e, r)], by simp, hd⟩
    · exact ⟨done, e, r, [], rfl, hd⟩

theorem Spec.hasRow_append {D : Type} (done : List (String × String × EvalResult D)) (x : String × String × EvalResult D) (sid : String) :
    Spec.HasRow (done ++ [x]) sid ↔ Spec.HasRow done sid ∨ ∃ sweep d, Spec.HasSetting x.2.2 sid sweep d := by
  unfold Spec.HasRow
  simp only [List.mem_append, List.mem_singleton]
  constructor
  · rintro ⟨y, hy | rfl, h⟩
    · exact Or.inl ⟨y, hy, h⟩
    · exact Or.inr h
  · rintro (⟨y, hy, h⟩ | h)
    · exact ⟨y, Or.inl hy, h⟩
    · exact ⟨x, Or.inr rfl, h⟩

theorem Spec.RowHolds.name_mem {D : Type} {done : List (String × String × EvalResult D)} {sid name : String} {d : D}
    (h : Spec.RowHolds done sid name d) : name ∈ done.map (·.1) := by
  obtain ⟨pre, expr, r, post, rfl, _⟩ := h
  simp

theorem keys_inSet_not {β : Type} (k : String) (v : β) (d : List (String × β)) (h : k ∉ d.map (·.1)) :
    inSet k v d = d ++ [(k, v)] := by
  induction d with
  | nil => rfl
  | cons p r ih =>
    obtain ⟨k', v'⟩ := p
    simp only [List.map_cons, List.mem_cons, not_or] at h
    unfold inSet
    rw [if_neg (fun e => h.1 e.symm), ih h.2]
    rfl

theorem slookup_none_iff {β : Type} (d : List (String × β)) (k : String) : d.lookup k = none ↔ k ∉ d.map (·.1) := by
  induction d with
  | nil => simp
  | cons p r ih =>
    obtain ⟨k', v'⟩ := p
    simp only [List.lookup, List.map_cons, List.mem_cons, not_or]
    by_cases h : k = k'
    · subst h; simp
    · rw [beq_eq_false_iff_ne.mpr h]; simp [h, ih]

theorem slookup_some_mem {β : Type} {d : List (String × β)} {k : String} {v : β} (h : d.lookup k = some v) : k ∈ d.map (·.1) := by
  by_contra hc
  rw [(slookup_none_iff d k).2 hc] at h
  simp at h

theorem mem_keys_inSet {β : Type} (k k' : String) (v : β) (d : List (String × β)) :
    k' ∈ (inSet k v d).map (·.1) ↔ k' = k ∨ k' ∈ d.map (·.1) := by
  by_cases h : k ∈ d.map (·.1)
  · rw [keys_inSet k v d h]
    exact ⟨Or.inr, fun hh => hh.elim (fun e => e ▸ h) id⟩
  · rw [keys_inSet_not k v d h]
    simp only [List.map_append, List.map_cons, List.map_nil, List.mem_append, List.mem_singleton]
    exact or_comm

theorem nodup_keys_inSet {β : Type} (k : String) (v : β) (d : List (String × β)) (h : (d.map (·.1)).Nodup) :
    ((inSet k v d).map (·.1)).Nodup := by
  by_cases hk : k ∈ d.map (·.1)
  · rw [keys_inSet k v d hk]; exact h
  · rw [keys_inSet_not k v d hk, List.map_append]
    refine List.Nodup.append h (by simp) ?_
    intro x hx hx'
    simp at hx'
    subst hx'
    exact hk hx

theorem lookup_rowUpdate_not {D : Type} (new : List (String × SumCell D)) (row : SumRow D) (k : String) (h : k ∉ new.map (·.1)) :
    (rowUpdate row new).lookup k = row.lookup k := by
  induction new generalizing row with
  | nil => rfl
  | cons p r ih =>
    simp only [List.map_cons, List.mem_cons, not_or] at h
    show (rowUpdate (inSet p.1 p.2 row) r).lookup k = _
    rw [ih _ h.2, lookup_inSet, if_neg h.1]

theorem lookup_rowUpdate_mem {D : Type} (new : List (String × SumCell D)) (row : SumRow D) (k : String) (c : SumCell D)
    (hn : (new.map (·.1)).Nodup) (h : (k, c) ∈ new) : (rowUpdate row new).lookup k = some c := by
  induction new generalizing row with
  | nil => simp at h
  | cons p r ih =>
    simp only [List.map_cons, List.nodup_cons] at hn
    show (rowUpdate (inSet p.1 p.2 row) r).lookup k = _
    rcases List.mem_cons.1 h with rfl | h
    · rw [lookup_rowUpdate_not _ _ _ hn.1, lookup_inSet, if_pos rfl]
    · exact ih _ hn.2 h

theorem sweepRowId_eq (name : String) (sweep : List (String × String)) (h : ∀ k ∈ sweep.map (·.1), k ≠ "sweep" ∧ k ≠ name) :
    sweepRowId name sweep = Spec.rowId sweep := by
  unfold sweepRowId Spec.rowId
  rw [List.filter_eq_self.2]
  intro kv hkv
  obtain ⟨h1, h2⟩ := h kv.1 (List.mem_map.2 ⟨kv, hkv, rfl⟩)
  simp [h1, h2]

/-- With a name that no row has yet, the value is stored in every row. -/
theorem addToAll_fresh {D : Type} (append : D → D → Option D) (name : String) (d : D) (rows : SumRows D)
    (h : ∀ x ∈ rows, x.2.lookup name = none) :
    addToAll append name d rows = some (rows.map fun x => (x.1, inSet name (.data d) x.2)) := by
  induction rows with
  | nil => rfl
  | cons p r ih =>
    obtain ⟨sid, row⟩ := p
    unfold addToAll
    rw [ih fun x hx => h x (List.mem_cons_of_mem _ hx)]
    have := h (sid, row) (by simp)
    simp only at this ⊢
    rw [this]
    rfl

theorem lookup_map_row {D : Type} (f : SumRow D → SumRow D) (rows : SumRows D) (sid : String) :
    (rows.map fun x => (x.1, f x.2)).lookup sid = (rows.lookup sid).map f := by
  induction rows with
  | nil => rfl
  | cons p r ih =>
    obtain ⟨k, row⟩ := p
    simp only [List.map_cons, List.lookup]
    by_cases h : sid = k
    · subst h; simp
    · rw [beq_eq_false_iff_ne.mpr h]; exact ih

theorem smem_lookup_nodup {β : Type} {d : List (String × β)} (hn : (d.map (·.1)).Nodup) {k : String} {v : β} (h : (k, v) ∈ d) :
    d.lookup k = some v := by
  induction d with
  | nil => simp at h
  | cons p r ih =>
    obtain ⟨k', v'⟩ := p
    simp only [List.map_cons, List.nodup_cons] at hn
    simp only [List.lookup]
    rcases List.mem_cons.1 h with e | hm
    · simp only [Prod.mk.injEq] at e
      obtain ⟨rfl, rfl⟩ := e
      simp
    · have : k ≠ k' := by rintro rfl; exact hn.1 (List.mem_map.2 ⟨(k, v), hm, rfl⟩)
      rw [beq_eq_false_iff_ne.mpr this]
      exact ih hn.2 hm

/-- The invariant of the loop. -/
structure RowsInv {D : Type} (names : List String) (done : List (String × String × EvalResult D)) (rows : SumRows D) : Prop where
  nodup : (rows.map (·.1)).Nodup
  ids : ∀ sid, sid ∈ rows.map (·.1) ↔ Spec.HasRow done sid
  cells : ∀ sid row, rows.lookup sid = some row → ∀ name ∈ names, ∀ c,
    row.lookup name = some c ↔ ∃ d, c = .data d ∧ Spec.RowHolds done sid name d
  sweep : ∀ sid row, rows.lookup sid = some row → ∃ x ∈ done, ∃ sw d, Spec.HasSetting x.2.2 sid sw d ∧
    ∀ kv ∈ sw, row.lookup kv.1 = some (.text kv.2)

theorem RowsInv.fresh {D : Type} {names : List String} {done : List (String × String × EvalResult D)} {rows : SumRows D}
    (h : RowsInv names done rows) {name : String} (hn : name ∈ names) (hnew : name ∉ done.map (·.1)) {sid : String} {row : SumRow D}
    (hr : rows.lookup sid = some row) : row.lookup name = none := by
  cases e : row.lookup name with
  | none => rfl
  | some c =>
    obtain ⟨d, _, hd⟩ := (h.cells sid row hr name hn c).1 e
    exact absurd hd.name_mem hnew

/-- A swept result without groups changes nothing. -/
theorem RowsInv.swept_nil {D : Type} {names : List String} {done : List (String × String × EvalResult D)} {rows : SumRows D}
    (h : RowsInv names done rows) (name expr : String) : RowsInv names (done ++ [(name, expr, .swept [])]) rows := by
  have hno : ∀ sid sw d, ¬ Spec.HasSetting (D := D) (.swept []) sid sw d := by
    rintro sid sw d ⟨g, e, hm, _⟩
    simp only [EvalResult.swept.injEq] at e
    subst e; simp at hm
  refine ⟨h.nodup, fun sid => ?_, fun sid row hr n hn c => ?_, fun sid row hr => ?_⟩
  · rw [h.ids, Spec.hasRow_append]
    simp [hno]
  · rw [h.cells sid row hr n hn]
    simp only [Spec.holds_append, hno, reduceCtorEq, exists_false, false_or, false_and, and_false, or_false, or_self]
  · obtain ⟨x, hx, sw, d, hs⟩ := h.sweep sid row hr
    exact ⟨x, by simp [hx], sw, d, hs⟩

/-- One more group. -/
theorem RowsInv.swept_snoc {D : Type} {names : List String} {done : List (String × String × EvalResult D)} {rows : SumRows D}
    {name expr : String} {gs : List (List (String × String) × D)} {g : List (String × String) × D}
    (h : RowsInv names (done ++ [(name, expr, .swept gs)]) rows) (hn : name ∈ names) (hnew : name ∉ done.map (·.1))
    (hid : Spec.rowId g.1 ∉ gs.map fun g => Spec.rowId g.1) (hk : (g.1.map (·.1)).Nodup)
    (hkeys : ∀ k ∈ g.1.map (·.1), k ≠ "sweep" ∧ k ∉ names ∧ ∀ n ∈ names, k ≠ n ++ "_expression")
    (hex : ∀ n ∈ names, ∀ m ∈ names, n ≠ m ++ "_expression") :
    RowsInv names (done ++ [(name, expr, .swept (gs ++ [g]))]) (gatherGroup name expr rows g) := by
  have hsid : sweepRowId name g.1 = Spec.rowId g.1 :=
    sweepRowId_eq name g.1 fun k hk => ⟨(hkeys k hk).1, fun e => (hkeys k hk).2.1 (e ▸ hn)⟩
  -- what the longer result has
  have hset : ∀ sid sw d, Spec.HasSetting (.swept (gs ++ [g])) sid sw d ↔
      Spec.HasSetting (.swept gs) sid sw d ∨ ((sw, d) = g ∧ Spec.rowId g.1 = sid) := by
    intro sid sw d
    constructor
    · rintro ⟨gr, e, hm, hi⟩
      simp only [EvalResult.swept.injEq] at e
      subst e
      rcases List.mem_append.1 hm with hm | hm
      · exact Or.inl ⟨gs, rfl, hm, hi⟩
      · simp only [List.mem_singleton] at hm
        subst hm
        exact Or.inr ⟨rfl, hi⟩
    · rintro (⟨gr, e, hm, hi⟩ | ⟨rfl, hi⟩)
      · simp only [EvalResult.swept.injEq] at e
        subst e
        exact ⟨_, rfl, List.mem_append_left _ hm, hi⟩
      · exact ⟨_, rfl, by simp, hi⟩
  have hnot : ∀ sw d, ¬ Spec.HasSetting (.swept gs) (Spec.rowId g.1) sw d := by
    rintro sw d ⟨gr, e, hm, hi⟩
    simp only [EvalResult.swept.injEq] at e
    subst e
    exact hid (List.mem_map.2 ⟨_, hm, hi⟩)
  have hholds : ∀ sid n d, Spec.RowHolds (done ++ [(name, expr, .swept (gs ++ [g]))]) sid n d ↔
      Spec.RowHolds (done ++ [(name, expr, .swept gs)]) sid n d ∨ (n = name ∧ d = g.2 ∧ Spec.rowId g.1 = sid) := by
    intro sid n d
    rw [Spec.holds_append, Spec.holds_append]
    simp only [reduceCtorEq, or_self, false_and, or_false, hset]
    constructor
    · rintro (h | ⟨rfl, sw, h | ⟨h, hi⟩⟩)
      · exact Or.inl (Or.inl h)
      · exact Or.inl (Or.inr ⟨rfl, sw, h⟩)
      · exact Or.inr ⟨rfl, by rw [← h], hi⟩
    · rintro ((h | ⟨rfl, sw, h⟩) | ⟨rfl, rfl, hi⟩)
      · exact Or.inl h
      · exact Or.inr ⟨rfl, sw, Or.inl h⟩
      · exact Or.inr ⟨rfl, g.1, Or.inr ⟨rfl, hi⟩⟩
  have hrow : ∀ sid, Spec.HasRow (done ++ [(name, expr, .swept (gs ++ [g]))]) sid ↔
      Spec.HasRow (done ++ [(name, expr, .swept gs)]) sid ∨ Spec.rowId g.1 = sid := by
    intro sid
    rw [Spec.hasRow_append, Spec.hasRow_append]
    simp only [hset]
    constructor
    · rintro (h | ⟨sw, d, h | ⟨_, hi⟩⟩)
      · exact Or.inl (Or.inl h)
      · exact Or.inl (Or.inr ⟨sw, d, h⟩)
      · exact Or.inr hi
    · rintro ((h | ⟨sw, d, h⟩) | hi)
      · exact Or.inl h
      · exact Or.inr ⟨sw, d, Or.inl h⟩
      · exact Or.inr ⟨g.1, g.2, Or.inr ⟨rfl, hi⟩⟩
  -- under the new id the name has no value yet
  have hnone : ∀ d, ¬ Spec.RowHolds (done ++ [(name, expr, .swept gs)]) (Spec.rowId g.1) name d := by
    intro d hd
    rw [Spec.holds_append] at hd
    rcases hd with hd | ⟨_, ⟨sw, hs⟩ | ⟨hc, _⟩⟩
    · exact hnew hd.name_mem
    · exact hnot sw d hs
    · simp at hc
  have hlift : ∀ {x : String × String × EvalResult D} {sid sw d}, x ∈ done ++ [(name, expr, EvalResult.swept gs)] →
      Spec.HasSetting x.2.2 sid sw d → ∃ x' ∈ done ++ [(name, expr, EvalResult.swept (gs ++ [g]))], Spec.HasSetting x'.2.2 sid sw d := by
    intro x sid sw d hx hs
    rcases List.mem_append.1 hx with hx | hx
    · exact ⟨x, by simp [hx], hs⟩
    · simp only [List.mem_singleton] at hx
      subst hx
      exact ⟨_, List.mem_append_right _ (List.mem_singleton.2 rfl), (hset _ _ _).2 (Or.inl hs)⟩
  unfold gatherGroup
  rw [hsid]
  cases hl : rows.lookup (Spec.rowId g.1) with
  | none =>
    simp only
    have hnk := (slookup_none_iff rows _).1 hl
    have hnr : ¬ Spec.HasRow (done ++ [(name, expr, .swept gs)]) (Spec.rowId g.1) := fun hc => hnk ((h.ids _).2 hc)
    have hnm : ∀ n ∈ names, n ∉ (g.1.map fun kv => (kv.1, (SumCell.text kv.2 : SumCell D))).map (·.1) := by
      intro n hn hc
      rw [List.map_map] at hc
      exact (hkeys n hc).2.1 hn
    refine ⟨nodup_keys_inSet _ _ _ h.nodup, fun sid => ?_, fun sid row hr n hnn c => ?_, fun sid row hr => ?_⟩
    · rw [mem_keys_inSet, h.ids, hrow]
      exact ⟨fun hh => hh.elim (fun e => Or.inr e.symm) Or.inl, fun hh => hh.elim Or.inr (fun e => Or.inl e.symm)⟩
    · rw [lookup_inSet] at hr
      by_cases hs : sid = Spec.rowId g.1
      · rw [if_pos hs] at hr
        simp only [Option.some.injEq] at hr
        subst hr hs
        rw [lookup_rowUpdate_not _ _ _ (hnm n hnn)]
        have hne : n ≠ name ++ "_expression" := hex n hnn name hn
        simp only [List.lookup, beq_eq_false_iff_ne.mpr hne]
        by_cases hnn' : n = name
        · subst hnn'
          simp only [beq_self_eq_true, Option.some.injEq]
          constructor
          · rintro rfl
            exact ⟨g.2, rfl, (hholds _ _ _).2 (Or.inr ⟨rfl, rfl, rfl⟩)⟩
          · rintro ⟨d, rfl, hd⟩
            rcases (hholds _ _ _).1 hd with hd | ⟨_, rfl, _⟩
            · exact absurd hd (hnone d)
            · rfl
        · rw [beq_eq_false_iff_ne.mpr hnn']
          simp only [reduceCtorEq, false_iff, not_exists, not_and]
          rintro d rfl hd
          rcases (hholds _ _ _).1 hd with hd | ⟨e, _⟩
          · rw [Spec.holds_append] at hd
            rcases hd with ⟨pre, ex, r, post, e, hd⟩ | ⟨e, _⟩
            · apply hnr
              rcases hd with ⟨sw, hs⟩ | ⟨_, ⟨x, hx, hs⟩⟩
              · exact ⟨(n, ex, r), by rw [e]; simp, sw, d, hs⟩
              · exact ⟨x, by rw [e]; simp [hx], hs⟩
            · exact hnn' e
          · exact hnn' e
      · rw [if_neg hs] at hr
        rw [h.cells sid row hr n hnn]
        simp only [hholds]
        constructor
        · rintro ⟨d, rfl, hd⟩; exact ⟨d, rfl, Or.inl hd⟩
        · rintro ⟨d, rfl, hd | ⟨_, _, e⟩⟩
          · exact ⟨d, rfl, hd⟩
          · exact absurd e.symm hs
    · rw [lookup_inSet] at hr
      by_cases hs : sid = Spec.rowId g.1
      · rw [if_pos hs] at hr
        simp only [Option.some.injEq] at hr
        subst hr hs
        refine ⟨_, List.mem_append_right _ (List.mem_singleton.2 rfl), g.1, g.2, (hset _ _ _).2 (Or.inr ⟨rfl, rfl⟩), ?_⟩
        intro kv hkv
        apply lookup_rowUpdate_mem
        · rw [List.map_map]; exact hk
        · exact List.mem_map.2 ⟨kv, hkv, rfl⟩
      · rw [if_neg hs] at hr
        obtain ⟨x, hx, sw, d, hss, hf⟩ := h.sweep sid row hr
        obtain ⟨x', hx', hss'⟩ := hlift hx hss
        exact ⟨x', hx', sw, d, hss', hf⟩
  | some row0 =>
    simp only
    refine ⟨nodup_keys_inSet _ _ _ h.nodup, fun sid => ?_, fun sid row hr n hnn c => ?_, fun sid row hr => ?_⟩
    · rw [mem_keys_inSet, h.ids, hrow]
      exact ⟨fun hh => hh.elim (fun e => Or.inr e.symm) Or.inl, fun hh => hh.elim Or.inr (fun e => Or.inl e.symm)⟩
    · rw [lookup_inSet] at hr
      by_cases hs : sid = Spec.rowId g.1
      · rw [if_pos hs] at hr
        simp only [Option.some.injEq] at hr
        subst hr hs
        rw [lookup_inSet]
        by_cases hnn' : n = name
        · subst hnn'
          rw [if_pos rfl]
          simp only [Option.some.injEq]
          constructor
          · rintro rfl
            exact ⟨g.2, rfl, (hholds _ _ _).2 (Or.inr ⟨rfl, rfl, rfl⟩)⟩
          · rintro ⟨d, rfl, hd⟩
            rcases (hholds _ _ _).1 hd with hd | ⟨_, rfl, _⟩
            · exact absurd hd (hnone d)
            · rfl
        · rw [if_neg hnn', h.cells _ row0 hl n hnn]
          simp only [hholds]
          constructor
          · rintro ⟨d, rfl, hd⟩; exact ⟨d, rfl, Or.inl hd⟩
          · rintro ⟨d, rfl, hd | ⟨e, _⟩⟩
            · exact ⟨d, rfl, hd⟩
            · exact absurd e hnn'
      · rw [if_neg hs] at hr
        rw [h.cells sid row hr n hnn]
        simp only [hholds]
        constructor
        · rintro ⟨d, rfl, hd⟩; exact ⟨d, rfl, Or.inl hd⟩
        · rintro ⟨d, rfl, hd | ⟨_, _, e⟩⟩
          · exact ⟨d, rfl, hd⟩
          · exact absurd e.symm hs
    · rw [lookup_inSet] at hr
      have key : ∀ row1, rows.lookup sid = some row1 → (∀ kv ∈ ([] : List (String × String)), True) → ∃ x ∈ done ++ [(name, expr, .swept (gs ++ [g]))],
          ∃ sw d, Spec.HasSetting x.2.2 sid sw d ∧ ∀ kv ∈ sw, row1.lookup kv.1 = some (.text kv.2) := by
        intro row1 hr1 _
        obtain ⟨x, hx, sw, d, hss, hf⟩ := h.sweep sid row1 hr1
        obtain ⟨x', hx', hss'⟩ := hlift hx hss
        exact ⟨x', hx', sw, d, hss', hf⟩
      by_cases hs : sid = Spec.rowId g.1
      · rw [if_pos hs] at hr
        simp only [Option.some.injEq] at hr
        subst hr hs
        obtain ⟨x, hx, sw, d, hss, hf⟩ := key row0 hl (by simp)
        refine ⟨x, hx, sw, d, hss, fun kv hkv => ?_⟩
        rw [lookup_inSet, if_neg]
        · exact hf kv hkv
        · intro e
          -- the name of an operation is not a sweep key: it would hold text
          have := hf kv hkv
          rw [e] at this
          obtain ⟨d', hd', _⟩ := (h.cells _ row0 hl name hn _).1 this
          simp at hd'
      · rw [if_neg hs] at hr
        exact key row hr (by simp)

theorem RowsInv.swept {D : Type} {names : List String} {done : List (String × String × EvalResult D)} {rows : SumRows D}
    (h : RowsInv names done rows) {name expr : String} {gs : List (List (String × String) × D)}
    (hn : name ∈ names) (hnew : name ∉ done.map (·.1)) (hc : Spec.NamesClean names (done ++ [(name, expr, .swept gs)])) :
    RowsInv names (done ++ [(name, expr, .swept gs)]) (gs.foldl (gatherGroup name expr) rows) := by
  have hnd := hc.settings (name, expr, .swept gs) (by simp) gs rfl
  have hks := hc.keys (name, expr, .swept gs) (by simp) gs rfl
  have hex := hc.exprs
  clear hc
  induction gs using List.reverseRecOn with
  | nil => exact h.swept_nil name expr
  | append_singleton gs g ih =>
    rw [List.foldl_append]
    rw [List.map_append] at hnd
    have hdis := List.disjoint_of_nodup_append hnd
    refine (ih hnd.of_append_left fun g' hg' => hks g' (by simp [hg'])).swept_snoc hn hnew ?_ (hks g (by simp)).1 (hks g (by simp)).2 hex
    intro hm
    exact hdis hm (by simp)

/-- One value for all settings. -/
theorem RowsInv.scalar {D : Type} {names : List String} {done : List (String × String × EvalResult D)} {rows : SumRows D}
    (h : RowsInv names done rows) {name expr : String} {r : EvalResult D} {d : D} (hr : r = .array d ∨ r = .other d)
    (hn : name ∈ names) (hnew : name ∉ done.map (·.1)) :
    RowsInv names (done ++ [(name, expr, r)]) (rows.map fun x => (x.1, inSet name (.data d) x.2)) := by
  have hno : ∀ sid sw d', ¬ Spec.HasSetting r sid sw d' := by
    rintro sid sw d' ⟨g, e, _⟩
    rcases hr with rfl | rfl <;> simp at e
  have hrow : ∀ sid, Spec.HasRow (done ++ [(name, expr, r)]) sid ↔ Spec.HasRow done sid := by
    intro sid
    rw [Spec.hasRow_append]
    simp [hno]
  have hd : ∀ d', (r = .array d' ∨ r = .other d') ↔ d' = d := by
    intro d'
    rcases hr with rfl | rfl
    · simp; exact eq_comm
    · simp; exact eq_comm
  have hkeys : (rows.map fun x => (x.1, inSet name (.data d) x.2)).map (·.1) = rows.map (·.1) := by simp [List.map_map]
  refine ⟨by rw [hkeys]; exact h.nodup, fun sid => by rw [hkeys, hrow]; exact h.ids sid, fun sid row hl n hnn c => ?_, fun sid row hl => ?_⟩
  · rw [lookup_map_row] at hl
    obtain ⟨row0, h0, rfl⟩ := Option.map_eq_some_iff.1 hl
    rw [lookup_inSet]
    simp only [Spec.holds_append, hno, exists_false, false_or, hd]
    have hrw : Spec.HasRow done sid := (h.ids sid).1 (slookup_some_mem h0)
    by_cases e : n = name
    · subst e
      rw [if_pos rfl]
      simp only [Option.some.injEq, true_and]
      constructor
      · rintro rfl
        exact ⟨d, rfl, Or.inr ⟨rfl, hrw⟩⟩
      · rintro ⟨d', rfl, hd' | ⟨rfl, _⟩⟩
        · exact absurd hd'.name_mem hnew
        · rfl
    · rw [if_neg e, h.cells sid row0 h0 n hnn]
      simp only [e, false_and, or_false]
  · rw [lookup_map_row] at hl
    obtain ⟨row0, h0, rfl⟩ := Option.map_eq_some_iff.1 hl
    obtain ⟨x, hx, sw, d', hss, hf⟩ := h.sweep sid row0 h0
    refine ⟨x, by simp [hx], sw, d', hss, fun kv hkv => ?_⟩
    rw [lookup_inSet, if_neg]
    · exact hf kv hkv
    · intro e
      have := hf kv hkv
      rw [e, h.fresh hn hnew h0] at this
      simp at this

end GeNSIT
