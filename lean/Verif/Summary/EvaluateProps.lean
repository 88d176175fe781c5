import Verif.Summary.Evaluate

/-!
# C124: what the summary table of a member of the collection holds
-/

set_option linter.unusedSimpArgs false
set_option linter.unusedVariables false

namespace GeNSIT

theorem evalLoop_append {D : Type} (eval : List (String × EvalResult D) → String → Option (EvalResult D)) (append : D → D → Option D)
    (sw : Bool) (expId : String) (a b : List (String × String)) (st : EvalState D) :
    evalLoop eval append sw expId (a ++ b) st =
      (evalLoop eval append sw expId a st).bind fun st' => evalLoop eval append sw expId b st' := by
  induction a generalizing st with
  | nil => rfl
  | cons op r ih =>
    simp only [List.cons_append, evalLoop]
    cases evalStep eval append sw expId st op with
    | none => rfl
    | some st' => exact ih st'

theorem Spec.Evaluates.names {D : Type} {eval : List (String × EvalResult D) → String → Option (EvalResult D)}
    {ops : List (String × String)} {done : List (String × String × EvalResult D)} (h : Spec.Evaluates eval ops done) :
    ∀ x ∈ done, (x.1, x.2.1) ∈ ops := by
  induction h with
  | nil => simp
  | fails h hf ih => intro x hx; simp [ih x hx]
  | succeeds h hs ih =>
    intro x hx
    rcases List.mem_append.1 hx with hx | hx
    · simp [ih x hx]
    · simp only [List.mem_singleton] at hx
      subst hx
      simp

theorem Spec.NamesClean.left {D : Type} {names : List String} {a b : List (String × String × EvalResult D)} (h : Spec.NamesClean names (a ++ b)) :
    Spec.NamesClean names a :=
  ⟨fun x hx => h.settings x (by simp [hx]), fun x hx => h.keys x (by simp [hx]), h.exprs⟩

theorem lookup_of_mem_rows {D : Type} {rows : SumRows D} (hn : (rows.map (·.1)).Nodup) {x : String × SumRow D} (h : x ∈ rows) :
    rows.lookup x.1 = some x.2 := smem_lookup_nodup hn h

/-- The state of the loop after distinct operations on swept outputs. -/
theorem evalLoop_swept {D : Type} {eval : List (String × EvalResult D) → String → Option (EvalResult D)} (append : D → D → Option D)
    (expId : String) {names : List String} {ops : List (String × String)} {done : List (String × String × EvalResult D)}
    (h : Spec.Evaluates eval ops done) (hnames : ∀ op ∈ ops, op.1 ∈ names) (hnd : (ops.map (·.1)).Nodup)
    (hc : Spec.NamesClean names done)
    (hfirst : ∀ pre n e d post, done = pre ++ (n, e, .other d) :: post → ∃ sid, Spec.HasRow pre sid) :
    ∃ rows last, evalLoop eval append true expId ops ⟨[], [], none⟩ = some ⟨rows, done.map fun x => (x.1, x.2.2), last⟩ ∧
      RowsInv names done rows := by
  induction h with
  | nil =>
    refine ⟨[], none, rfl, ⟨by simp, fun sid => by simp [Spec.HasRow], ?_, ?_⟩⟩
    · intro sid row hr; simp at hr
    · intro sid row hr; simp at hr
  | @fails ops done name expr h hf ih =>
    rw [List.map_append] at hnd
    obtain ⟨rows, last, hl, hinv⟩ := ih (fun op ho => hnames op (by simp [ho])) hnd.of_append_left hc hfirst
    have hnew : name ∉ done.map (·.1) := by
      intro hm
      obtain ⟨x, hx, rfl⟩ := List.mem_map.1 hm
      exact List.disjoint_of_nodup_append hnd (List.mem_map.2 ⟨_, h.names x hx, rfl⟩) (by simp)
    refine ⟨rows, last, ?_, hinv⟩
    rw [evalLoop_append, hl]
    simp only [Option.bind_some, evalLoop, evalStep]
    rw [if_neg (by simpa [List.map_map] using hnew), hf]
  | @succeeds ops done name expr r h hs ih =>
    rw [List.map_append] at hnd
    obtain ⟨rows, last, hl, hinv⟩ := ih (fun op ho => hnames op (by simp [ho])) hnd.of_append_left hc.left
      (fun pre n e d post he => hfirst pre n e d (post ++ [(name, expr, r)]) (by rw [he]; simp))
    have hnew : name ∉ done.map (·.1) := by
      intro hm
      obtain ⟨x, hx, rfl⟩ := List.mem_map.1 hm
      exact List.disjoint_of_nodup_append hnd (List.mem_map.2 ⟨_, h.names x hx, rfl⟩) (by simp)
    have hn : name ∈ names := hnames (name, expr) (by simp)
    have hfresh : ∀ x ∈ rows, x.2.lookup name = none := fun x hx => hinv.fresh hn hnew (lookup_of_mem_rows hinv.nodup hx)
    have hstep : ∀ rows', gather append true expId rows name expr r = some rows' →
        evalLoop eval append true expId (ops ++ [(name, expr)]) ⟨[], [], none⟩ =
          some ⟨rows', (done ++ [(name, expr, r)]).map fun x => (x.1, x.2.2), some r⟩ := by
      intro rows' hg
      rw [evalLoop_append, hl]
      simp only [Option.bind_some, evalLoop, evalStep]
      rw [if_neg (by simpa [List.map_map] using hnew), hs]
      simp only [hg, Option.map_some]
      simp
    cases r with
    | swept gs => exact ⟨_, _, hstep _ rfl, hinv.swept hn hnew hc⟩
    | array d =>
      refine ⟨_, _, hstep (rows.map fun x => (x.1, inSet name (.data d) x.2)) ?_, hinv.scalar (Or.inl rfl) hn hnew⟩
      simp only [gather]
      rw [addToAll_fresh append name d rows hfresh]
      simp
    | other d =>
      refine ⟨_, _, hstep (rows.map fun x => (x.1, inSet name (.data d) x.2)) ?_, hinv.scalar (Or.inr rfl) hn hnew⟩
      simp only [gather]
      rw [addToAll_fresh append name d rows hfresh]
      obtain ⟨sid, hr⟩ := hfirst done name expr d [] rfl
      have hpos : 0 < rows.length := by
        have := (hinv.ids sid).2 hr
        cases rows with
        | nil => simp at this
        | cons _ _ => simp
      simp only [Option.map_some, List.length_map]
      rw [if_neg]
      push Not
      exact ⟨by simp, hpos⟩

/-- C124: for outputs of a sweep and operations with different names, the summary has one row per sweep setting for which some operation
has a value; the row holds the setting, and under the name of each operation exactly the value that operation has for the setting.
(An operation with one value for all settings is entered in the rows that exist by then; the first operation with a result must
have values per setting, or no operation gives a plain Python value.) -/
theorem C124_table {D : Type} (eval : List (String × EvalResult D) → String → Option (EvalResult D)) (append : D → D → Option D)
    (expId : String) (ops : List (String × String)) (done : List (String × String × EvalResult D))
    (h : Spec.Evaluates eval ops done) (hnd : (ops.map (·.1)).Nodup) (hc : Spec.NamesClean (ops.map (·.1)) done)
    (hfirst : ∀ pre n e d post, done = pre ++ (n, e, .other d) :: post → ∃ sid, Spec.HasRow pre sid) :
    ∃ (ids : List String) (rows : List (SumRow D)), evaluateExpressions eval append true expId ops = some rows ∧ rows.length = ids.length ∧ ids.Nodup ∧
      (∀ sid, sid ∈ ids ↔ Spec.HasRow done sid) ∧
      ∀ (k : ℕ) sid row, ids[k]? = some sid → rows[k]? = some row →
        (∀ name ∈ ops.map (·.1), ∀ c, row.lookup name = some c ↔ ∃ d, c = .data d ∧ Spec.RowHolds done sid name d) ∧
        ∃ x ∈ done, ∃ sw d, Spec.HasSetting x.2.2 sid sw d ∧ ∀ kv ∈ sw, row.lookup kv.1 = some (.text kv.2) := by
  obtain ⟨rows, last, hl, hinv⟩ := evalLoop_swept append expId h (fun op ho => List.mem_map.2 ⟨op, ho, rfl⟩) hnd hc hfirst
  refine ⟨rows.map (·.1), rows.map (·.2), ?_, by simp, hinv.nodup, hinv.ids, ?_⟩
  · unfold evaluateExpressions
    rw [hl]
    rfl
  · intro k sid row hk hr
    rw [List.getElem?_map] at hk hr
    obtain ⟨x, hx, rfl⟩ := Option.map_eq_some_iff.1 hk
    rw [hx] at hr
    simp only [Option.map_some, Option.some.injEq] at hr
    subst hr
    have := lookup_of_mem_rows hinv.nodup (List.mem_of_getElem? hx)
    exact ⟨hinv.cells _ _ this, hinv.sweep _ _ this⟩

/-- Two settings of `seed`; `srmse` has a value for each, `total` one for both. -/
def exEval : List (String × EvalResult ℕ) → String → Option (EvalResult ℕ)
  | _, "srmse(t)" => some (.swept [([("seed", "1")], 10), ([("seed", "2")], 20)])
  | _, "cp(t)" => some (.swept [([("seed", "1")], 30), ([("seed", "2")], 40)])
  | _, "t.sum()" => some (.array 7)
  | _, "len(t)" => some (.other 8)
  | _, _ => none

def noAppend : ℕ → ℕ → Option ℕ := fun _ _ => none

example : Spec.Evaluates exEval [("srmse", "srmse(t)"), ("x", "boom"), ("total", "t.sum()")]
      [("srmse", "srmse(t)", .swept [([("seed", "1")], 10), ([("seed", "2")], 20)]), ("total", "t.sum()", .array 7)] ∧
    Spec.NamesClean ["srmse", "x", "total"]
      [("srmse", "srmse(t)", EvalResult.swept [([("seed", "1")], 10), ([("seed", "2")], 20)]), ("total", "t.sum()", .array 7)] ∧
    evaluateExpressions exEval noAppend true "e" [("srmse", "srmse(t)"), ("x", "boom"), ("total", "t.sum()")] =
      some [[("srmse_expression", .text "srmse(t)"), ("srmse", .data 10), ("seed", .text "1"), ("total", .data 7)],
        [("srmse_expression", .text "srmse(t)"), ("srmse", .data 20), ("seed", .text "2"), ("total", .data 7)]] := by
  refine ⟨?_, ⟨?_, ?_, ?_⟩, by decide +kernel⟩
  · exact .succeeds (ops := [("srmse", "srmse(t)"), ("x", "boom")]) (.fails (ops := [("srmse", "srmse(t)")])
      (.succeeds (ops := []) .nil rfl) rfl) rfl
  · intro x hx groups hg
    simp only [List.mem_cons, List.not_mem_nil, or_false] at hx
    rcases hx with rfl | rfl
    · simp only [EvalResult.swept.injEq] at hg
      subst hg
      decide +kernel
    · simp at hg
  · intro x hx groups hg
    simp only [List.mem_cons, List.not_mem_nil, or_false] at hx
    rcases hx with rfl | rfl
    · simp only [EvalResult.swept.injEq] at hg
      subst hg
      decide +kernel
    · simp at hg
  · decide +kernel

/-- C124: not every value reaches every row: a value computed before the first operation with values per setting is lost (labelled array). -/
theorem C124_value_in_every_row_false : ¬ ∀ (D : Type) (eval : List (String × EvalResult D) → String → Option (EvalResult D))
    (append : D → D → Option D) (expId : String) (ops : List (String × String)) (done : List (String × String × EvalResult D))
    (rows : List (SumRow D)), Spec.Evaluates eval ops done → (ops.map (·.1)).Nodup → Spec.NamesClean (ops.map (·.1)) done →
    evaluateExpressions eval append true expId ops = some rows →
    ∀ x ∈ done, ∀ d, x.2.2 = .array d → ∀ row ∈ rows, row.lookup x.1 = some (.data d) := by
  intro hA
  have hrun : evaluateExpressions exEval noAppend true "e" [("total", "t.sum()"), ("srmse", "srmse(t)")] =
      some [[("srmse_expression", .text "srmse(t)"), ("srmse", .data 10), ("seed", .text "1")],
        [("srmse_expression", .text "srmse(t)"), ("srmse", .data 20), ("seed", .text "2")]] := by decide +kernel
  have := hA ℕ exEval noAppend "e" [("total", "t.sum()"), ("srmse", "srmse(t)")]
    [("total", "t.sum()", .array 7), ("srmse", "srmse(t)", .swept [([("seed", "1")], 10), ([("seed", "2")], 20)])] _
    (.succeeds (ops := [("total", "t.sum()")]) (.succeeds (ops := []) .nil rfl) rfl) (by decide +kernel) ?_ hrun
    ("total", "t.sum()", .array 7) (by simp) 7 rfl _ (List.mem_cons_self ..)
  · revert this; decide +kernel
  · refine ⟨?_, ?_, by decide +kernel⟩
    · intro x hx groups hg
      simp only [List.mem_cons, List.not_mem_nil, or_false] at hx
      rcases hx with rfl | rfl
      · simp at hg
      · simp only [EvalResult.swept.injEq] at hg
        subst hg
        decide +kernel
    · intro x hx groups hg
      simp only [List.mem_cons, List.not_mem_nil, or_false] at hx
      rcases hx with rfl | rfl
      · simp at hg
      · simp only [EvalResult.swept.injEq] at hg
        subst hg
        decide +kernel

/-- C124: a plain value computed before the first operation with values per setting adds a row that belongs to no setting. -/
theorem C124_extra_row : evaluateExpressions exEval noAppend true "e" [("n", "len(t)"), ("srmse", "srmse(t)")] =
    some [[("n", .data 8)], [("srmse_expression", .text "srmse(t)"), ("srmse", .data 10), ("seed", .text "1")],
      [("srmse_expression", .text "srmse(t)"), ("srmse", .data 20), ("seed", .text "2")]] := by decide +kernel

/-- C124: a second operation of the same name is not evaluated but is given the value of the latest operation: evaluating an operation
again is not harmless. -/
theorem C124_repeat_harmless_false : ¬ ∀ (D : Type) (eval : List (String × EvalResult D) → String → Option (EvalResult D))
    (append : D → D → Option D) (sw : Bool) (expId : String) (ops : List (String × String)) (rows : List (SumRow D)), ∀ op ∈ ops,
    evaluateExpressions eval append sw expId ops = some rows → evaluateExpressions eval append sw expId (ops ++ [op]) = some rows := by
  intro hA
  have := hA ℕ exEval noAppend true "e" [("srmse", "srmse(t)"), ("cp", "cp(t)")] _ ("srmse", "srmse(t)") (by simp)
    (show _ = some [[("srmse_expression", .text "srmse(t)"), ("srmse", .data 10), ("seed", .text "1"), ("cp", .data 30)],
      [("srmse_expression", .text "srmse(t)"), ("srmse", .data 20), ("seed", .text "2"), ("cp", .data 40)]] by decide +kernel)
  revert this
  decide +kernel

/-- C124: after the repetition both columns hold the values of the other operation. -/
theorem C124_repeat_stale :
    evaluateExpressions exEval noAppend true "e" [("srmse", "srmse(t)"), ("cp", "cp(t)"), ("srmse", "srmse(t)")] =
    some [[("srmse_expression", .text "srmse(t)"), ("srmse", .data 30), ("seed", .text "1"), ("cp", .data 30)],
      [("srmse_expression", .text "srmse(t)"), ("srmse", .data 40), ("seed", .text "2"), ("cp", .data 40)]] := by decide +kernel

/-- C124: an operation named like a sweep key collapses the settings it tells apart into one row. -/
theorem C124_named_like_key : evaluateExpressions (D := ℕ)
      (fun _ _ => some (.swept [([("seed", "1")], 10), ([("seed", "2")], 20)])) noAppend true "e" [("seed", "f(t)")] =
    some [[("seed_expression", .text "f(t)"), ("seed", .data 20)]] := by decide +kernel

/-- C124: settings that differ only in the number of the sweep or in a key called like the operation share one row: the keys that tell rows apart
are the others. -/
theorem C124_index_ignored {D : Type} (eval : List (String × EvalResult D) → String → Option (EvalResult D)) (append : D → D → Option D)
    (swept : Bool) (expId name expr : String) (sw sw' : List (String × String)) (d d' : D)
    (he : eval [] expr = some (.swept [(sw, d), (sw', d')]))
    (hs : sw.filter (fun kv => kv.1 ≠ "sweep" ∧ kv.1 ≠ name) = sw'.filter (fun kv => kv.1 ≠ "sweep" ∧ kv.1 ≠ name)) :
    ∃ row, evaluateExpressions eval append swept expId [(name, expr)] = some [row] ∧ row.lookup name = some (.data d') := by
  have hid : sweepRowId name sw' = sweepRowId name sw := by
    have hf : ∀ l : List (String × String), l.filter (fun kv => !(kv.1 == name || kv.1 == "sweep")) =
        l.filter (fun kv => kv.1 ≠ "sweep" ∧ kv.1 ≠ name) := by
      intro l
      apply List.filter_congr
      intro kv _
      by_cases h1 : kv.1 = name <;> by_cases h2 : kv.1 = "sweep" <;> simp [h1, h2]
    unfold sweepRowId
    rw [hf, hf, hs]
  have key : ∀ row0 : SumRow D, gatherGroup name expr [(sweepRowId name sw, row0)] (sw', d') =
      [(sweepRowId name sw, inSet name (.data d') row0)] := by
    intro row0
    simp [gatherGroup, hid, List.lookup, inSet]
  refine ⟨inSet name (.data d')
    (rowUpdate [(name ++ "_expression", .text expr), (name, .data d)] (sw.map fun kv => (kv.1, .text kv.2))), ?_, ?_⟩
  · unfold evaluateExpressions
    simp only [evalLoop, evalStep, List.map_nil, List.not_mem_nil, if_false, he, gather, Option.map_some, List.foldl_cons, List.foldl_nil]
    have h1 : gatherGroup name expr [] (sw, d) = [(sweepRowId name sw,
        rowUpdate [(name ++ "_expression", .text expr), (name, .data d)] (sw.map fun kv => (kv.1, .text kv.2)))] := rfl
    rw [h1, key]
    rfl
  · rw [lookup_inSet, if_pos rfl]

example : evaluateExpressions (D := ℕ)
      (fun _ _ => some (.swept [([("seed", "1"), ("sweep", "1")], 10), ([("seed", "1"), ("sweep", "2")], 20)])) noAppend true "e" [("f", "f(t)")] =
    some [[("f_expression", .text "f(t)"), ("f", .data 20), ("seed", .text "1"), ("sweep", .text "1")]] := by decide +kernel

/-! ### Outputs that are not the result of a sweep -/

/-- What the single row holds: the values of the operations from the last plain one on. -/
def Spec.suffixRow {D : Type} : List (String × String × EvalResult D) → SumRow D → SumRow D
  | [], row => row
  | (n, _, .other d) :: r, _ => Spec.suffixRow r [(n, .data d)]
  | (n, _, .array d) :: r, row => Spec.suffixRow r (row ++ [(n, .data d)])
  | (_, _, .swept _) :: r, row => Spec.suffixRow r row

theorem Spec.suffixRow_append {D : Type} (a b : List (String × String × EvalResult D)) (row : SumRow D) :
    Spec.suffixRow (a ++ b) row = Spec.suffixRow b (Spec.suffixRow a row) := by
  induction a generalizing row with
  | nil => rfl
  | cons x r ih =>
    obtain ⟨n, e, res⟩ := x
    cases res <;> simp only [List.cons_append, Spec.suffixRow, ih]

theorem Spec.suffixRow_keys {D : Type} (a : List (String × String × EvalResult D)) (row : SumRow D) :
    ∀ k ∈ (Spec.suffixRow a row).map (·.1), k ∈ row.map (·.1) ∨ k ∈ a.map (·.1) := by
  induction a generalizing row with
  | nil => intro k hk; exact Or.inl hk
  | cons x r ih =>
    obtain ⟨n, e, res⟩ := x
    intro k hk
    cases res with
    | swept gs =>
      rcases ih _ k hk with h | h
      · exact Or.inl h
      · exact Or.inr (by simp [h])
    | array d =>
      rcases ih _ k hk with h | h
      · simp only [List.map_append, List.map_cons, List.map_nil, List.mem_append, List.mem_singleton] at h
        rcases h with h | h
        · exact Or.inl h
        · exact Or.inr (by simp [h])
      · exact Or.inr (by simp [h])
    | other d =>
      rcases ih _ k hk with h | h
      · simp only [List.map_cons, List.map_nil, List.mem_singleton] at h
        exact Or.inr (by simp [h])
      · exact Or.inr (by simp [h])

theorem evalLoop_unswept {D : Type} {eval : List (String × EvalResult D) → String → Option (EvalResult D)} (append : D → D → Option D)
    (expId : String) {ops : List (String × String)} {done : List (String × String × EvalResult D)}
    (h : Spec.Evaluates eval ops done) (hnd : (ops.map (·.1)).Nodup) (hns : ∀ x ∈ done, ∀ gs, x.2.2 ≠ .swept gs) :
    ∃ last, evalLoop eval append false expId ops ⟨[], [], none⟩ =
      some ⟨if done = [] then [] else [(expId, Spec.suffixRow done [])], done.map fun x => (x.1, x.2.2), last⟩ := by
  induction h with
  | nil => exact ⟨none, rfl⟩
  | @fails ops done name expr h hf ih =>
    rw [List.map_append] at hnd
    obtain ⟨last, hl⟩ := ih hnd.of_append_left hns
    have hnew : name ∉ done.map (·.1) := by
      intro hm
      obtain ⟨x, hx, rfl⟩ := List.mem_map.1 hm
      exact List.disjoint_of_nodup_append hnd (List.mem_map.2 ⟨_, h.names x hx, rfl⟩) (by simp)
    refine ⟨last, ?_⟩
    rw [evalLoop_append, hl]
    simp only [Option.bind_some, evalLoop, evalStep]
    rw [if_neg (by simpa [List.map_map] using hnew), hf]
  | @succeeds ops done name expr r h hs ih =>
    rw [List.map_append] at hnd
    obtain ⟨last, hl⟩ := ih hnd.of_append_left fun x hx => hns x (by simp [hx])
    have hnew : name ∉ done.map (·.1) := by
      intro hm
      obtain ⟨x, hx, rfl⟩ := List.mem_map.1 hm
      exact List.disjoint_of_nodup_append hnd (List.mem_map.2 ⟨_, h.names x hx, rfl⟩) (by simp)
    have hlk : (Spec.suffixRow done ([] : SumRow D)).lookup name = none := by
      rw [slookup_none_iff]
      intro hc
      rcases Spec.suffixRow_keys done [] name hc with hc | hc
      · simp at hc
      · exact hnew hc
    have hkeys := (slookup_none_iff _ _).1 hlk
    have hfresh : ∀ x ∈ (if done = [] then [] else [(expId, Spec.suffixRow done ([] : SumRow D))]), x.2.lookup name = none := by
      intro x hx
      split at hx
      · simp at hx
      · simp only [List.mem_singleton] at hx
        subst hx
        exact hlk
    have hstep : ∀ rows', gather append false expId (if done = [] then [] else [(expId, Spec.suffixRow done [])]) name expr r = some rows' →
        evalLoop eval append false expId (ops ++ [(name, expr)]) ⟨[], [], none⟩ =
          some ⟨rows', (done ++ [(name, expr, r)]).map fun x => (x.1, x.2.2), some r⟩ := by
      intro rows' hg
      rw [evalLoop_append, hl]
      simp only [Option.bind_some, evalLoop, evalStep]
      rw [if_neg (by simpa [List.map_map] using hnew), hs]
      simp only [hg, Option.map_some]
      simp
    refine ⟨some r, hstep _ ?_⟩
    rw [if_neg (by simp : done ++ [(name, expr, r)] ≠ [])]
    rw [Spec.suffixRow_append]
    cases r with
    | swept gs => exact absurd rfl (hns (name, expr, .swept gs) (by simp) gs)
    | array d =>
      simp only [gather]
      rw [addToAll_fresh append name d _ hfresh]
      by_cases hd : done = []
      · subst hd
        simp [Spec.suffixRow, inSet]
      · rw [if_neg hd]
        simp only [List.map_cons, List.map_nil, Option.map_some, List.length_singleton]
        rw [if_neg (by simp), keys_inSet_not _ _ _ hkeys]
        rfl
    | other d =>
      simp only [gather]
      rw [addToAll_fresh append name d _ hfresh]
      by_cases hd : done = []
      · subst hd
        simp [Spec.suffixRow, inSet]
      · rw [if_neg hd]
        simp [Spec.suffixRow, inSet]

/-- C124: for outputs that are not the result of a sweep and operations with different names, none of which gives values per setting, the
summary is one row holding the values from the last plain Python value on. -/
theorem C124_unswept {D : Type} (eval : List (String × EvalResult D) → String → Option (EvalResult D)) (append : D → D → Option D)
    (expId : String) (ops : List (String × String)) (done : List (String × String × EvalResult D))
    (h : Spec.Evaluates eval ops done) (hnd : (ops.map (·.1)).Nodup) (hns : ∀ x ∈ done, ∀ gs, x.2.2 ≠ .swept gs) (hne : done ≠ []) :
    evaluateExpressions eval append false expId ops = some [Spec.suffixRow done []] := by
  obtain ⟨last, hl⟩ := evalLoop_unswept append expId h hnd hns
  unfold evaluateExpressions
  rw [hl, if_neg hne]
  rfl

/-- C124: labelled arrays are all kept. -/
theorem C124_unswept_arrays {D : Type} (eval : List (String × EvalResult D) → String → Option (EvalResult D)) (append : D → D → Option D)
    (expId : String) (ops : List (String × String)) (vals : List (String × String × D))
    (h : Spec.Evaluates eval ops (vals.map fun x => (x.1, x.2.1, .array x.2.2))) (hnd : (ops.map (·.1)).Nodup) (hne : vals ≠ []) :
    evaluateExpressions eval append false expId ops = some [vals.map fun x => (x.1, .data x.2.2)] := by
  rw [C124_unswept eval append expId ops _ h hnd
    (by intro x hx gs hg; obtain ⟨y, _, rfl⟩ := List.mem_map.1 hx; simp at hg) (by simpa using hne)]
  congr 2
  have : ∀ row : SumRow D, Spec.suffixRow (vals.map fun x => (x.1, x.2.1, EvalResult.array x.2.2)) row =
      row ++ vals.map fun x => (x.1, .data x.2.2) := by
    clear h hne
    induction vals with
    | nil => simp [Spec.suffixRow]
    | cons x r ih =>
      intro row
      simp only [List.map_cons, Spec.suffixRow]
      rw [ih]
      simp
  simpa using this []

example : evaluateExpressions exEval noAppend false "e" [("total", "t.sum()"), ("x", "boom"), ("sum", "t.sum()")] =
    some [[("total", .data 7), ("sum", .data 7)]] := by decide +kernel

/-- C124: plain values are not: only the last one is. -/
theorem C124_unswept_false : ¬ ∀ (D : Type) (eval : List (String × EvalResult D) → String → Option (EvalResult D))
    (append : D → D → Option D) (expId : String) (ops : List (String × String)) (done : List (String × String × EvalResult D))
    (rows : List (SumRow D)), Spec.Evaluates eval ops done → (ops.map (·.1)).Nodup → evaluateExpressions eval append false expId ops = some rows →
    ∀ x ∈ done, ∀ d, x.2.2 = .other d → ∃ row ∈ rows, row.lookup x.1 = some (.data d) := by
  intro hA
  have hrun : evaluateExpressions exEval noAppend false "e" [("n", "len(t)"), ("m", "len(t)")] = some [[("m", .data 8)]] := by decide +kernel
  obtain ⟨row, hrow, hl⟩ := hA ℕ exEval noAppend "e" [("n", "len(t)"), ("m", "len(t)")]
    [("n", "len(t)", .other 8), ("m", "len(t)", .other 8)] _
    (.succeeds (ops := [("n", "len(t)")]) (.succeeds (ops := []) .nil rfl) rfl) (by decide +kernel) hrun
    ("n", "len(t)", .other 8) (by simp) 8 rfl
  simp only [List.mem_singleton] at hrow
  subst hrow
  revert hl
  decide +kernel

/-! ### Keyword arguments -/

theorem lookup_rawPhase {V : Type} {read : String → SampleRead V} {keys : List String} {env env' : List (String × V)}
    (h : rawPhase read keys env = some env') (k : String) :
    env'.lookup k = if k ∈ keys then (match read k with | .value v => some v | _ => env.lookup k) else env.lookup k := by
  induction keys generalizing env with
  | nil => simp [rawPhase] at h; simp [h]
  | cons a r ih =>
    unfold rawPhase at h
    by_cases hka : k = a
    · subst hka
      simp only [List.mem_cons, true_or, if_true]
      cases hr : read k with
      | value v =>
        rw [hr] at h
        rw [ih h, lookup_inSet, if_pos rfl, hr]
        simp
      | missing =>
        rw [hr] at h
        rw [ih h, hr]
        simp
      | error => rw [hr] at h; simp at h
    · simp only [List.mem_cons, hka, false_or]
      cases hr : read a with
      | value v => rw [hr] at h; rw [ih h, lookup_inSet, if_neg hka]
      | missing => rw [hr] at h; exact ih h
      | error => rw [hr] at h; simp at h

theorem exprPhase_append {V : Type} (eval : List (String × V) → String → Option (Option V)) (a b : List (String × String))
    (env : List (String × V)) : exprPhase eval (a ++ b) env = exprPhase eval b (exprPhase eval a env) := by
  induction a generalizing env with
  | nil => rfl
  | cons p r ih =>
    obtain ⟨k, e⟩ := p
    simp only [List.cons_append, exprPhase]
    cases env.lookup k with
    | some v => exact ih env
    | none =>
      simp only
      cases eval env e with
      | none => exact ih env
      | some o =>
        cases o with
        | none => exact ih env
        | some v => exact ih _

theorem exprPhase_keeps {V : Type} (eval : List (String × V) → String → Option (Option V)) (a : List (String × String))
    (env : List (String × V)) (k : String) (v : V) (h : env.lookup k = some v) : (exprPhase eval a env).lookup k = some v := by
  induction a generalizing env with
  | nil => exact h
  | cons p r ih =>
    obtain ⟨k', e⟩ := p
    simp only [exprPhase]
    cases hk : env.lookup k' with
    | some v' => exact ih env h
    | none =>
      simp only
      cases eval env e with
      | none => exact ih env h
      | some o =>
        cases o with
        | none => exact ih env h
        | some v' =>
          refine ih _ ?_
          rw [lookup_inSet, if_neg]
          · exact h
          · rintro rfl; rw [hk] at h; simp at h

theorem exprPhase_other {V : Type} (eval : List (String × V) → String → Option (Option V)) (a : List (String × String))
    (env : List (String × V)) (k : String) (h : k ∉ a.map (·.1)) : (exprPhase eval a env).lookup k = env.lookup k := by
  induction a generalizing env with
  | nil => rfl
  | cons p r ih =>
    obtain ⟨k', e⟩ := p
    simp only [List.map_cons, List.mem_cons, not_or] at h
    simp only [exprPhase]
    cases hk : env.lookup k' with
    | some v' => exact ih env h.2
    | none =>
      simp only
      cases eval env e with
      | none => exact ih env h.2
      | some o =>
        cases o with
        | none => exact ih env h.2
        | some v' => rw [ih _ h.2, lookup_inSet, if_neg h.1]

/-- C124: a keyword argument that names raw data is that data, whatever its expression; if the data are missing the argument is absent. -/
theorem C124_raw_keywords {V : Type} (isRaw : String → Bool) (read : String → SampleRead V)
    (eval : List (String × V) → String → Option (Option V)) (kwargs : List (String × String)) (env : List (String × V))
    (h : keywordArgs isRaw read eval kwargs = some env) (k : String) (hk : k ∈ kwargs.map (·.1)) (hr : isRaw k = true) :
    (∀ v, env.lookup k = some v ↔ read k = .value v) := by
  unfold keywordArgs at h
  obtain ⟨env0, h0, rfl⟩ := Option.map_eq_some_iff.1 h
  intro v
  rw [exprPhase_other]
  · rw [lookup_rawPhase h0, if_pos (List.mem_filter.2 ⟨hk, hr⟩)]
    cases read k <;> simp
  · intro hc
    obtain ⟨kv, hkv, rfl⟩ := List.mem_map.1 hc
    have := (List.mem_filter.1 hkv).2
    rw [hr] at this
    simp at this

/-- C124: of several definitions of another keyword argument the first that gives a value (other than `None`) with the arguments found
before it is used. -/
theorem C124_first_definition {V : Type} (isRaw : String → Bool) (read : String → SampleRead V)
    (eval : List (String × V) → String → Option (Option V)) (kwargs : List (String × String)) (env : List (String × V))
    (h : keywordArgs isRaw read eval kwargs = some env) (pre post : List (String × String)) (k e : String) (v : V)
    (hk : kwargs = pre ++ (k, e) :: post) (hr : isRaw k = false) :
    ∃ before, (∀ k' v', before.lookup k' = some v' → env.lookup k' = some v') ∧
      ((before.lookup k = none ∧ eval before e = some (some v)) → env.lookup k = some v) ∧
      (k ∉ pre.map (·.1) → before.lookup k = none) ∧
      (k ∉ post.map (·.1) → before.lookup k = none → (env.lookup k = some v ↔ eval before e = some (some v))) := by
  unfold keywordArgs at h
  obtain ⟨env0, h0, rfl⟩ := Option.map_eq_some_iff.1 h
  have hsplit : kwargs.filter (fun kv => !isRaw kv.1) =
      pre.filter (fun kv => !isRaw kv.1) ++ (k, e) :: post.filter fun kv => !isRaw kv.1 := by
    rw [hk, List.filter_append, List.filter_cons_of_pos (by simp [hr])]
  have h0k : env0.lookup k = none := by
    rw [lookup_rawPhase h0, if_neg]
    · rfl
    · intro hc
      have := (List.mem_filter.1 hc).2
      rw [hr] at this
      simp at this
  have hmem : ∀ l : List (String × String), k ∉ l.map (·.1) → k ∉ (l.filter fun kv => !isRaw kv.1).map (·.1) := by
    intro l hl hc
    obtain ⟨kv, hkv, rfl⟩ := List.mem_map.1 hc
    exact hl (List.mem_map.2 ⟨kv, (List.mem_filter.1 hkv).1, rfl⟩)
  refine ⟨exprPhase eval (pre.filter fun kv => !isRaw kv.1) env0, ?_, ?_, ?_, ?_⟩
  · intro k' v' hv
    rw [hsplit, exprPhase_append]
    exact exprPhase_keeps _ _ _ _ _ hv
  · rintro ⟨hn, hv⟩
    rw [hsplit, exprPhase_append]
    simp only [exprPhase]
    rw [hn]
    simp only [hv]
    exact exprPhase_keeps _ _ _ _ _ (by rw [lookup_inSet, if_pos rfl])
  · intro hp
    rw [exprPhase_other _ _ _ _ (hmem _ hp), h0k]
  · intro hp hn
    rw [hsplit, exprPhase_append]
    simp only [exprPhase]
    rw [hn]
    simp only
    have hp' := hmem _ hp
    cases hv : eval (exprPhase eval (pre.filter fun kv => !isRaw kv.1) env0) e with
    | none => simp only; rw [exprPhase_other _ _ _ _ hp', hn]; simp
    | some o =>
      cases o with
      | none => simp only; rw [exprPhase_other _ _ _ _ hp', hn]; simp
      | some v' =>
        simp only
        rw [exprPhase_other _ _ _ _ hp', lookup_inSet, if_pos rfl]
        simp

example : keywordArgs (V := ℕ) (fun k => k == "table") (fun _ => .value 5)
      (fun env e => if e = "table+1" then some ((env.lookup "table").map (· + 1)) else if e = "None" then some none else none)
      [("a", "boom"), ("b", "None"), ("a", "table+1"), ("table", ""), ("a", "boom")] =
    some [("table", 5), ("a", 6)] := by decide +kernel

end GeNSIT
