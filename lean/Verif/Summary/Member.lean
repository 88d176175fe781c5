import Verif.Summary.EvaluateProps
import Verif.Config.FindLemmas
import Verif.Config.Validate

/-!
# The metadata of an experiment (`gensit/outputs.py`, `OutputSummary.get_experiment_metadata`, `collect_metadata`)
-/

set_option linter.unusedSimpArgs false
set_option linter.unusedVariables false

namespace GeNSIT

open Spec

/-- A value of the configuration in the summary: as it is, or turned into text. -/
inductive MetaVal where
  | raw (a : Atom)
  | text (s : String)
deriving DecidableEq

/-- The conversion of iterable values (`gensit/outputs.py:2484-2488`): text, lists and dictionaries are given to `stringify` (`strf`). -/
def metaVal (strf : Cfg → String) : Cfg → MetaVal
  | .leaf (.str s) => .text (strf (.leaf (.str s)))
  | .leaf a => .raw a
  | c => .text (strf c)

/-- The name looked up for a key (`gensit/outputs.py:2467`). -/
def metaKey (key : String) : String := if key = "iter" then "N" else key

/-- The loop over the metadata keys (`gensit/outputs.py:2463-2488`): keys that are not found are skipped; for a swept key the dictionary has
no entry, which is a `KeyError` (`none`). -/
def metaLoop (strf : Cfg → String) (cfg : Cfg) : List String → List (String × MetaVal) → Option (List (String × MetaVal))
  | [], acc => some acc
  | key :: r, acc =>
    match (pathFind (.str (metaKey key)) cfg [] []).2 with
    | [] => metaLoop strf cfg r acc
    | p :: _ =>
      if hasSweep cfg p then
        match acc.lookup key with
        | none => none
        | some v => metaLoop strf cfg r acc
      else metaLoop strf cfg r (inSet key (metaVal strf (pathVal cfg p)) acc)

/-- A value in a record of the summary. -/
inductive RecCell (D : Type) where
  | cell (c : SumCell D)
  | nan
  | conf (v : MetaVal)
  | folder (path : String)
deriving DecidableEq

/-- The columns of `pandas.DataFrame(rows)`: the names in the order of their first appearance. -/
def frameCols {D : Type} (rows : List (SumRow D)) : List String :=
  (rows.flatMap fun r => r.map (·.1)).foldl (fun cols k => if k ∈ cols then cols else cols ++ [k]) []

/-- One row of the data frame: names a row does not have are filled with NaN. -/
def frameRow {D : Type} (cols : List String) (row : SumRow D) : List (String × RecCell D) :=
  cols.map fun k => (k, match row.lookup k with | some c => .cell c | none => .nan)

/-- `DataFrame.assign` and `to_dict` (`gensit/outputs.py:2494-2500`) for one row: existing columns are replaced. -/
def assignMeta {D : Type} (folder : String) (metas : List (String × MetaVal)) (row : List (String × RecCell D)) :
    List (String × RecCell D) :=
  metas.foldl (fun r kv => inSet kv.1 (.conf kv.2) r) (inSet "folder" (.folder folder) row)

inductive MemberErr where
  | missingData
  | keyError
  | typeError
deriving DecidableEq

/-- `get_experiment_metadata` (`gensit/outputs.py:2430-2500`) after the expressions have been evaluated to `rows`. A metadata key `folder`
that is found clashes with the other argument of `assign` (`TypeError`). -/
def memberRecords {D : Type} (strf : Cfg → String) (cfg : Cfg) (folder : String) (keys : List String) (rows : List (SumRow D)) :
    Except MemberErr (List (List (String × RecCell D))) :=
  if rows.length > 0 then
    match metaLoop strf cfg keys [] with
    | none => .error .keyError
    | some metas =>
      if "folder" ∈ metas.map (·.1) then .error .typeError
      else .ok (rows.map fun row => assignMeta folder metas (frameRow (frameCols rows) row))
  else .error .missingData

/-! ## C125 -/

/-- The first path (in the order of the file) at which the settings have a key. -/
def Spec.firstPath (key : String) (cfg : Cfg) : Option (List Key) := (pathsTo (.str key) cfg).head?

theorem pathFind_first {cfg : Cfg} (hw : WellFormed cfg) (hp : ∀ p, HasPath cfg p → p.Nodup) (key : String) :
    (pathFind (.str key) cfg [] []).2 = pathsTo (.str key) cfg := by
  rw [pathFind_exact (.str key) cfg [] [] hw (by simpa using hp)]
  simp

/-- What the loop stores. -/
theorem metaLoop_spec {strf : Cfg → String} {cfg : Cfg} (hw : WellFormed cfg) (hp : ∀ p, HasPath cfg p → p.Nodup)
    (keys : List String) (acc : List (String × MetaVal))
    (hacc : ∀ k v, acc.lookup k = some v → ∃ p, Spec.firstPath (metaKey k) cfg = some p ∧ hasSweep cfg p = false ∧ v = metaVal strf (pathVal cfg p)) :
    ((∃ key ∈ keys, ∃ p, Spec.firstPath (metaKey key) cfg = some p ∧ hasSweep cfg p = true) → metaLoop strf cfg keys acc = none) ∧
    ((∀ key ∈ keys, ∀ p, Spec.firstPath (metaKey key) cfg = some p → hasSweep cfg p = false) →
      ∃ out, metaLoop strf cfg keys acc = some out ∧ ∀ k,
        out.lookup k = if k ∈ keys ∧ (Spec.firstPath (metaKey k) cfg).isSome then
          (Spec.firstPath (metaKey k) cfg).map fun p => metaVal strf (pathVal cfg p) else acc.lookup k) := by
  induction keys generalizing acc with
  | nil => exact ⟨by rintro ⟨k, hk, _⟩; simp at hk, fun _ => ⟨acc, rfl, fun k => by simp⟩⟩
  | cons key r ih =>
    simp only [metaLoop, pathFind_first hw hp]
    cases hpt : pathsTo (.str (metaKey key)) cfg with
    | nil =>
      have hno : Spec.firstPath (metaKey key) cfg = none := by simp [Spec.firstPath, hpt]
      obtain ⟨h1, h2⟩ := ih acc hacc
      refine ⟨?_, ?_⟩
      · rintro ⟨k, hk, p, hf, hs⟩
        rcases List.mem_cons.1 hk with rfl | hk
        · rw [hno] at hf; simp at hf
        · exact h1 ⟨k, hk, p, hf, hs⟩
      · intro hall
        obtain ⟨out, ho, hl⟩ := h2 fun k hk => hall k (by simp [hk])
        refine ⟨out, ho, fun k => ?_⟩
        rw [hl k]
        by_cases e : k = key
        · subst e; simp [hno]
        · simp [e]
    | cons p ps =>
      have hf : Spec.firstPath (metaKey key) cfg = some p := by simp [Spec.firstPath, hpt]
      cases hsw : hasSweep cfg p with
      | true =>
        simp only [hsw]
        have hnone : acc.lookup key = none := by
          cases hl : acc.lookup key with
          | none => rfl
          | some v =>
            obtain ⟨p', hp', hs', _⟩ := hacc key v hl
            rw [hf] at hp'
            simp only [Option.some.injEq] at hp'
            subst hp'
            rw [hsw] at hs'
            simp at hs'
        simp only [if_true, hnone]
        refine ⟨fun _ => trivial, fun hall => ?_⟩
        have := hall key (by simp) p hf
        rw [hsw] at this
        simp at this
      | false =>
        simp only [hsw, Bool.false_eq_true, if_false]
        have hacc' : ∀ k v, (inSet key (metaVal strf (pathVal cfg p)) acc).lookup k = some v →
            ∃ p, Spec.firstPath (metaKey k) cfg = some p ∧ hasSweep cfg p = false ∧ v = metaVal strf (pathVal cfg p) := by
          intro k v hl
          rw [lookup_inSet] at hl
          by_cases e : k = key
          · rw [if_pos e] at hl
            simp only [Option.some.injEq] at hl
            subst e hl
            exact ⟨p, hf, hsw, rfl⟩
          · rw [if_neg e] at hl
            exact hacc k v hl
        obtain ⟨h1, h2⟩ := ih _ hacc'
        refine ⟨?_, ?_⟩
        · rintro ⟨k, hk, q, hq, hs⟩
          rcases List.mem_cons.1 hk with rfl | hk
          · rw [hf] at hq
            simp only [Option.some.injEq] at hq
            subst hq
            rw [hsw] at hs
            simp at hs
          · exact h1 ⟨k, hk, q, hq, hs⟩
        · intro hall
          obtain ⟨out, ho, hl⟩ := h2 fun k hk => hall k (by simp [hk])
          refine ⟨out, ho, fun k => ?_⟩
          rw [hl k, lookup_inSet]
          by_cases e : k = key
          · subst e
            simp [hf]
          · simp [e]

theorem foldl_cols (l : List String) (cols : List String) (k : String) :
    k ∈ l.foldl (fun cols k => if k ∈ cols then cols else cols ++ [k]) cols ↔ k ∈ cols ∨ k ∈ l := by
  induction l generalizing cols with
  | nil => simp
  | cons a r ih =>
    simp only [List.foldl_cons]
    rw [ih]
    by_cases h : a ∈ cols
    · rw [if_pos h]
      simp only [List.mem_cons]
      constructor
      · rintro (h' | h')
        · exact Or.inl h'
        · exact Or.inr (Or.inr h')
      · rintro (h' | rfl | h')
        · exact Or.inl h'
        · exact Or.inl h
        · exact Or.inr h'
    · rw [if_neg h]
      simp only [List.mem_append, List.mem_singleton, List.mem_cons]
      tauto

theorem mem_frameCols {D : Type} (rows : List (SumRow D)) (k : String) :
    k ∈ frameCols rows ↔ ∃ row ∈ rows, ∃ c, row.lookup k = some c := by
  unfold frameCols
  rw [foldl_cols]
  simp only [List.not_mem_nil, false_or, List.mem_flatMap]
  constructor
  · rintro ⟨row, hr, hk⟩
    refine ⟨row, hr, ?_⟩
    cases hl : row.lookup k with
    | none => exact absurd hk ((slookup_none_iff _ _).1 hl)
    | some c => exact ⟨c, rfl⟩
  · rintro ⟨row, hr, c, hc⟩
    exact ⟨row, hr, slookup_some_mem hc⟩

theorem lookup_frameRow {D : Type} (cols : List String) (row : SumRow D) (k : String) :
    (frameRow cols row).lookup k = if k ∈ cols then some (match row.lookup k with | some c => .cell c | none => .nan) else none := by
  unfold frameRow
  induction cols with
  | nil => simp
  | cons a r ih =>
    simp only [List.map_cons, List.lookup]
    by_cases h : k = a
    · subst h; simp
    · rw [beq_eq_false_iff_ne.mpr h]
      simp only [ih, List.mem_cons, h, false_or]

theorem lookup_assign {D : Type} (metas : List (String × MetaVal)) (row : List (String × RecCell D)) (k : String)
    (hk : k ∉ metas.map (·.1)) : (metas.foldl (fun r kv => inSet kv.1 (RecCell.conf kv.2) r) row).lookup k = row.lookup k := by
  induction metas generalizing row with
  | nil => rfl
  | cons a r ih =>
    simp only [List.map_cons, List.mem_cons, not_or] at hk
    rw [List.foldl_cons, ih _ hk.2, lookup_inSet, if_neg hk.1]

theorem lookup_assign_mem {D : Type} (metas : List (String × MetaVal)) (hn : (metas.map (·.1)).Nodup) (row : List (String × RecCell D))
    (k : String) (v : MetaVal) (hk : metas.lookup k = some v) :
    (metas.foldl (fun r kv => inSet kv.1 (RecCell.conf kv.2) r) row).lookup k = some (.conf v) := by
  induction metas generalizing row with
  | nil => simp at hk
  | cons a r ih =>
    obtain ⟨a1, a2⟩ := a
    simp only [List.map_cons, List.nodup_cons] at hn
    simp only [List.lookup] at hk
    rw [List.foldl_cons]
    by_cases h : k = a1
    · subst h
      simp only [beq_self_eq_true, Option.some.injEq] at hk
      subst hk
      rw [lookup_assign _ _ _ hn.1, lookup_inSet, if_pos rfl]
    · rw [beq_eq_false_iff_ne.mpr h] at hk
      exact ih hn.2 _ hk

theorem metaLoop_nodup {strf : Cfg → String} {cfg : Cfg} (keys : List String) (acc out : List (String × MetaVal))
    (ha : (acc.map (·.1)).Nodup) (h : metaLoop strf cfg keys acc = some out) : (out.map (·.1)).Nodup := by
  induction keys generalizing acc with
  | nil => simp [metaLoop] at h; rw [← h]; exact ha
  | cons key r ih =>
    simp only [metaLoop] at h
    split at h
    · exact ih _ ha h
    · split at h
      · split at h
        · simp at h
        · exact ih _ ha h
      · exact ih _ (nodup_keys_inSet _ _ _ ha) h

/-- C125: the records of an experiment are made exactly if there is a row, no metadata key is swept, and no metadata key is `folder`. -/
theorem C125_succeeds {D : Type} (strf : Cfg → String) (cfg : Cfg) (hw : WellFormed cfg) (hp : ∀ p, HasPath cfg p → p.Nodup)
    (folder : String) (keys : List String) (rows : List (SumRow D)) :
    (∃ recs, memberRecords strf cfg folder keys rows = .ok recs) ↔
      rows ≠ [] ∧ (∀ key ∈ keys, ∀ p, Spec.firstPath (metaKey key) cfg = some p → hasSweep cfg p = false) ∧
        ¬ ("folder" ∈ keys ∧ (Spec.firstPath "folder" cfg).isSome) := by
  obtain ⟨h1, h2⟩ := metaLoop_spec (strf := strf) hw hp keys [] (by simp)
  unfold memberRecords
  by_cases hr : rows = []
  · subst hr; simp
  · have hlen : rows.length > 0 := List.length_pos_of_ne_nil hr
    rw [if_pos hlen]
    by_cases hsw : ∃ key ∈ keys, ∃ p, Spec.firstPath (metaKey key) cfg = some p ∧ hasSweep cfg p = true
    · rw [h1 hsw]
      simp only [reduceCtorEq, exists_false, false_iff]
      rintro ⟨_, hall, _⟩
      obtain ⟨key, hk, p, hf, hs⟩ := hsw
      rw [hall key hk p hf] at hs
      simp at hs
    · have hall : ∀ key ∈ keys, ∀ p, Spec.firstPath (metaKey key) cfg = some p → hasSweep cfg p = false := by
        intro key hk p hf
        cases hs : hasSweep cfg p with
        | false => rfl
        | true => exact absurd ⟨key, hk, p, hf, hs⟩ hsw
      obtain ⟨out, ho, hl⟩ := h2 hall
      rw [ho]
      simp only
      have hfold : "folder" ∈ out.map (·.1) ↔ ("folder" ∈ keys ∧ (Spec.firstPath "folder" cfg).isSome) := by
        rw [← not_iff_not, ← slookup_none_iff, hl, show metaKey "folder" = "folder" by decide]
        by_cases hc : "folder" ∈ keys ∧ (Spec.firstPath "folder" cfg).isSome = true
        · rw [if_pos hc]
          obtain ⟨p, hp'⟩ := Option.isSome_iff_exists.1 hc.2
          simp [hp', hc.1]
        · rw [if_neg hc]; simp [hc]
      by_cases hc : "folder" ∈ keys ∧ (Spec.firstPath "folder" cfg).isSome = true
      · rw [if_pos (hfold.2 hc)]
        simp [hc]
      · rw [if_neg (fun h => hc (hfold.1 h))]
        simp only [Except.ok.injEq, exists_eq', true_iff]
        exact ⟨hr, hall, hc⟩

/-- C125: each row becomes one record with the folder, the value of every metadata key that the configuration has (at its first place), and
the row's own values under all other names (NaN where only other rows have a value). -/
theorem C125_records {D : Type} (strf : Cfg → String) (cfg : Cfg) (hw : WellFormed cfg) (hp : ∀ p, HasPath cfg p → p.Nodup)
    (folder : String) (keys : List String) (rows : List (SumRow D)) (recs : List (List (String × RecCell D)))
    (h : memberRecords strf cfg folder keys rows = .ok recs) :
    recs.length = rows.length ∧ ∀ (k : ℕ) row rec, rows[k]? = some row → recs[k]? = some rec →
      rec.lookup "folder" = some (.folder folder) ∧
      (∀ key ∈ keys, ∀ p, Spec.firstPath (metaKey key) cfg = some p → rec.lookup key = some (.conf (metaVal strf (pathVal cfg p)))) ∧
      ∀ name, name ≠ "folder" → (name ∉ keys ∨ Spec.firstPath (metaKey name) cfg = none) →
        (∀ c, row.lookup name = some c → rec.lookup name = some (.cell c)) ∧
        (row.lookup name = none → (∃ row' ∈ rows, ∃ c, row'.lookup name = some c) → rec.lookup name = some .nan) ∧
        ((∀ row' ∈ rows, row'.lookup name = none) → rec.lookup name = none) := by
  obtain ⟨hr, hall, hfo⟩ := (C125_succeeds strf cfg hw hp folder keys rows).1 ⟨recs, h⟩
  obtain ⟨_, h2⟩ := metaLoop_spec (strf := strf) hw hp keys [] (by simp)
  obtain ⟨out, ho, hl⟩ := h2 hall
  have hnd := metaLoop_nodup keys [] out (by simp) ho
  unfold memberRecords at h
  rw [if_pos (List.length_pos_of_ne_nil hr), ho] at h
  simp only at h
  split at h
  · simp at h
  rename_i hnf
  simp only [Except.ok.injEq] at h
  subst h
  refine ⟨by simp, fun k row rec hk hrec => ?_⟩
  rw [List.getElem?_map, hk] at hrec
  simp only [Option.map_some, Option.some.injEq] at hrec
  subst hrec
  have hrow : row ∈ rows := List.mem_of_getElem? hk
  refine ⟨?_, ?_, ?_⟩
  · unfold assignMeta
    rw [lookup_assign _ _ _ hnf, lookup_inSet, if_pos rfl]
  · intro key hkey p hf
    unfold assignMeta
    apply lookup_assign_mem _ hnd
    rw [hl key, if_pos ⟨hkey, by simp [hf]⟩, hf]
    rfl
  · intro name hne hno
    have hnm : name ∉ out.map (·.1) := by
      rw [← slookup_none_iff, hl, if_neg]
      · rfl
      · rintro ⟨ha, hb⟩
        rcases hno with hno | hno
        · exact hno ha
        · rw [hno] at hb; simp at hb
    have hlk : (assignMeta folder out (frameRow (frameCols rows) row)).lookup name = (frameRow (frameCols rows) row).lookup name := by
      unfold assignMeta
      rw [lookup_assign _ _ _ hnm, lookup_inSet, if_neg hne]
    rw [hlk, lookup_frameRow]
    refine ⟨fun c hc => ?_, fun hn hex => ?_, fun hn => ?_⟩
    · rw [if_pos ((mem_frameCols _ _).2 ⟨row, hrow, c, hc⟩), hc]
    · rw [if_pos ((mem_frameCols _ _).2 hex), hn]
    · rw [if_neg]
      rw [mem_frameCols]
      rintro ⟨row', hr', c, hc⟩
      rw [hn row' hr'] at hc
      simp at hc

/-- A configuration with `N` and a swept `sigma`. -/
def exMetaCfg : Cfg := .node false [(.str "training", .node false [(.str "N", .leaf (.num 100)), (.str "to_learn", .node true [(.idx 0, .leaf (.str "alpha"))])]),
  (.str "sigma", .node false [(.str "sweep", .node false [(.str "default", .leaf (.num 1))])])]

example : memberRecords (D := ℕ) (fun _ => "t") exMetaCfg "out" ["iter", "to_learn", "title"] [[("srmse", .data 1)], [("cp", .data 2)]] =
    .ok [[("srmse", .cell (.data 1)), ("cp", .nan), ("folder", .folder "out"), ("iter", .conf (.raw (.num 100))), ("to_learn", .conf (.text "t"))],
      [("srmse", .nan), ("cp", .cell (.data 2)), ("folder", .folder "out"), ("iter", .conf (.raw (.num 100))), ("to_learn", .conf (.text "t"))]] := rfl

/-- C125: what the entries of a record are: the number of iterations is the value `N` of the configuration, any other key has its own value; numbers,
truth values and nothing are kept as they are, text and containers are given as text. -/
theorem C125_values {D : Type} (strf : Cfg → String) (cfg : Cfg) (hw : WellFormed cfg) (hp : ∀ p, HasPath cfg p → p.Nodup)
    (folder : String) (keys : List String) (rows : List (SumRow D)) (recs : List (List (String × RecCell D)))
    (h : memberRecords strf cfg folder keys rows = .ok recs) (rec : List (String × RecCell D)) (hr : rec ∈ recs) :
    ∀ key name, (key = "iter" ∧ name = "N" ∨ key ≠ "iter" ∧ name = key) → key ∈ keys → ∀ p, Spec.firstPath name cfg = some p →
      (∀ a, (∀ s, a ≠ .str s) → pathVal cfg p = .leaf a → rec.lookup key = some (.conf (.raw a))) ∧
      (∀ s, pathVal cfg p = .leaf (.str s) → rec.lookup key = some (.conf (.text (strf (.leaf (.str s)))))) ∧
      ∀ b kids, pathVal cfg p = .node b kids → rec.lookup key = some (.conf (.text (strf (.node b kids)))) := by
  intro key name hn hk p hfp
  have hmk : metaKey key = name := by
    unfold metaKey
    rcases hn with ⟨rfl, rfl⟩ | ⟨h1, rfl⟩
    · rfl
    · rw [if_neg h1]
  obtain ⟨hlen, hrec⟩ := C125_records strf cfg hw hp folder keys rows recs h
  obtain ⟨k, hlt, hk'⟩ := List.mem_iff_getElem.1 hr
  have hrow : rows[k]? = some (rows[k]'(by omega)) := List.getElem?_eq_getElem (by omega)
  have hlk := (hrec k _ rec hrow (by rw [List.getElem?_eq_getElem hlt, hk'])).2.1 key hk p (by rw [hmk]; exact hfp)
  refine ⟨fun a ha hv => ?_, fun s hv => ?_, fun b kids hv => ?_⟩
  · rw [hlk, hv]
    cases a with
    | str s => exact absurd rfl (ha s)
    | _ => rfl
  · rw [hlk, hv]; rfl
  · rw [hlk, hv]; rfl

/-- C125: so asking for a swept key (whose value is in the sweep columns) is not harmless: it raises. -/
theorem C125_swept_key_false : ¬ ∀ (strf : Cfg → String) (cfg : Cfg) (folder : String) (keys : List String) (rows : List (SumRow ℕ)),
    rows ≠ [] → "folder" ∉ keys → ∃ recs, memberRecords strf cfg folder keys rows = .ok recs := by
  intro h
  obtain ⟨recs, hr⟩ := h (fun _ => "t") exMetaCfg "out" ["sigma"] [[("srmse", .data 1)]] (by simp) (by decide)
  have : memberRecords (fun _ => "t") exMetaCfg "out" ["sigma"] [[("srmse", SumCell.data 1)]] = .error .keyError := rfl
  rw [this] at hr
  simp at hr

/-- C125: without any expression to evaluate (or if all fail) there is no summary at all. -/
theorem C125_no_expressions {D : Type} (eval : List (String × EvalResult D) → String → Option (EvalResult D)) (append : D → D → Option D)
    (sw : Bool) (expId : String) (strf : Cfg → String) (cfg : Cfg) (folder : String) (keys : List String) (ops : List (String × String))
    (hfail : ∀ op ∈ ops, eval [] op.2 = none) :
    ∃ rows, evaluateExpressions eval append sw expId ops = some rows ∧ memberRecords strf cfg folder keys rows = .error .missingData := by
  have : evalLoop eval append sw expId ops ⟨[], [], none⟩ = some ⟨[], [], none⟩ := by
    induction ops with
    | nil => rfl
    | cons op r ih =>
      simp only [evalLoop, evalStep]
      rw [if_neg (by simp), hfail op (by simp)]
      exact ih fun o ho => hfail o (by simp [ho])
  refine ⟨[], by unfold evaluateExpressions; rw [this]; rfl, ?_⟩
  unfold memberRecords
  rw [if_neg (by simp)]

/-! ### All folders -/

/-- `collect_metadata` (`gensit/outputs.py:2300-2322`, `2324-2360`): for each folder the records of its members, in order; a folder
without members or a member that fails ends it. Records are added to those of the folder that exist already. (`np.append` on lists of
records is concatenation.) -/
def collectFolders {R E : Type} (noMembers : E) : List (String × List (Except E (List R))) → List (String × List R) →
    Except E (List (String × List R))
  | [], acc => .ok acc
  | (folder, members) :: r, acc =>
    match members.mapM id with
    | .error e => .error e
    | .ok recs =>
      if recs.length ≤ 0 then .error noMembers
      else
        collectFolders noMembers r
          (recs.foldl (fun acc m => if m.length > 0 then inSet folder ((acc.lookup folder).getD [] ++ m) acc else acc) acc)

theorem mapM_id_ok {E R : Type} (ms : List (Except E R)) (recs : List R) : ms.mapM id = .ok recs ↔ ms = recs.map .ok := by
  induction ms generalizing recs with
  | nil =>
    rw [List.mapM_nil]
    show Except.ok [] = Except.ok recs ↔ _
    cases recs <;> simp
  | cons m r ih =>
    rw [List.mapM_cons]
    cases m with
    | error e =>
      show Except.error e = Except.ok recs ↔ _
      cases recs <;> simp
    | ok v =>
      cases hm : r.mapM id with
      | error e =>
        show Except.error e = Except.ok recs ↔ _
        cases recs with
        | nil => simp
        | cons a as =>
          simp only [reduceCtorEq, List.map_cons, List.cons.injEq, Except.ok.injEq, false_iff, not_and]
          rintro _ e2
          rw [← ih as] at e2
          rw [hm] at e2
          simp at e2
      | ok vs =>
        show Except.ok (v :: vs) = Except.ok recs ↔ _
        cases recs with
        | nil => simp
        | cons a as =>
          simp only [Except.ok.injEq, List.cons.injEq, List.map_cons]
          rw [← ih as, hm]
          simp

theorem fold_members {R : Type} (folder : String) (recs : List (List R)) (acc : List (String × List R)) (k : String) :
    (recs.foldl (fun acc m => if m.length > 0 then inSet folder ((acc.lookup folder).getD [] ++ m) acc else acc) acc).lookup k =
      if k = folder ∧ recs.flatten ≠ [] then some ((acc.lookup folder).getD [] ++ recs.flatten) else acc.lookup k := by
  induction recs generalizing acc with
  | nil => simp
  | cons m r ih =>
    rw [List.foldl_cons]
    cases m with
    | nil => simp only [List.length_nil, gt_iff_lt, lt_self_iff_false, if_false, List.flatten_cons, List.nil_append]; exact ih acc
    | cons a as =>
      rw [if_pos (by simp)]
      rw [ih]
      by_cases hk : k = folder
      · subst hk
        simp only [true_and, lookup_inSet, if_true, Option.getD_some, List.flatten_cons]
        by_cases hf : r.flatten = []
        · simp [hf]
        · simp [hf]
      · simp [hk, lookup_inSet]

/-- C125: the summary is made exactly if every folder has members and no member fails; then each folder has the records of its members,
in order, none lost, none added. -/
theorem C125_collection {R E : Type} (noMembers : E) (folders : List (String × List (Except E (List R)))) (hnd : (folders.map (·.1)).Nodup) :
    ((∃ out, collectFolders noMembers folders [] = .ok out) ↔
      ∀ f ∈ folders, f.2 ≠ [] ∧ ∀ m ∈ f.2, ∃ recs, m = .ok recs) ∧
    ∀ out, collectFolders noMembers folders [] = .ok out → ∀ f ∈ folders, ∃ recs : List (List R), f.2 = recs.map .ok ∧
      ((out.lookup f.1).getD []) = recs.flatten := by
  have main : ∀ (folders : List (String × List (Except E (List R)))) (acc : List (String × List R)), (folders.map (·.1)).Nodup →
      (∀ f ∈ folders, acc.lookup f.1 = none) →
      ((∃ out, collectFolders noMembers folders acc = .ok out) ↔ ∀ f ∈ folders, f.2 ≠ [] ∧ ∀ m ∈ f.2, ∃ recs, m = .ok recs) ∧
      ∀ out, collectFolders noMembers folders acc = .ok out →
        (∀ f ∈ folders, ∃ recs : List (List R), f.2 = recs.map .ok ∧ ((out.lookup f.1).getD []) = recs.flatten) ∧
        ∀ k, k ∉ folders.map (·.1) → out.lookup k = acc.lookup k := by
    intro folders
    induction folders with
    | nil =>
      intro acc _ _
      refine ⟨by simp [collectFolders], ?_⟩
      intro out ho
      simp only [collectFolders, Except.ok.injEq] at ho
      subst ho
      simp
    | cons f r ih =>
      intro acc hnd hacc
      obtain ⟨folder, members⟩ := f
      simp only [List.map_cons, List.nodup_cons] at hnd
      simp only [collectFolders]
      cases hm : members.mapM id with
      | error e =>
        refine ⟨?_, by simp⟩
        simp only [reduceCtorEq, exists_false, false_iff]
        intro hall
        have h1 := (hall (folder, members) (by simp)).2
        have : ∃ recs : List (List R), members = recs.map .ok := by
          clear hm hall hacc
          simp only at h1
          induction members with
          | nil => exact ⟨[], rfl⟩
          | cons m ms ihm =>
            obtain ⟨recs, hr⟩ := h1 m (by simp)
            obtain ⟨rs, hrs⟩ := ihm fun x hx => h1 x (by simp [hx])
            exact ⟨recs :: rs, by rw [List.map_cons, ← hrs, hr]⟩
        obtain ⟨recs, hr⟩ := this
        rw [(mapM_id_ok members recs).2 hr] at hm
        simp at hm
      | ok recs =>
        have hmem := (mapM_id_ok members recs).1 hm
        simp only
        by_cases hl : recs.length ≤ 0
        · rw [if_pos hl]
          have : recs = [] := by cases recs <;> simp_all
          subst this
          refine ⟨?_, by simp⟩
          simp only [reduceCtorEq, exists_false, false_iff]
          intro hall
          exact (hall (folder, members) (by simp)).1 (by simpa using hmem)
        · rw [if_neg hl]
          have hne : recs ≠ [] := by rintro rfl; simp at hl
          have hacc' : ∀ f ∈ r, (recs.foldl (fun acc m => if m.length > 0 then inSet folder ((acc.lookup folder).getD [] ++ m) acc else acc)
              acc).lookup f.1 = none := by
            intro f hf
            rw [fold_members, if_neg]
            · exact hacc f (by simp [hf])
            · rintro ⟨e, _⟩
              exact hnd.1 (e ▸ List.mem_map.2 ⟨f, hf, rfl⟩)
          obtain ⟨i1, i2⟩ := ih _ hnd.2 hacc'
          refine ⟨?_, ?_⟩
          · rw [i1]
            constructor
            · intro hall f hf
              rcases List.mem_cons.1 hf with rfl | hf
              · refine ⟨by rw [hmem]; simpa using hne, fun m hmm => ?_⟩
                rw [hmem] at hmm
                obtain ⟨rr, _, rfl⟩ := List.mem_map.1 hmm
                exact ⟨rr, rfl⟩
              · exact hall f hf
            · intro hall f hf
              exact hall f (by simp [hf])
          · intro out ho
            obtain ⟨j1, j2⟩ := i2 out ho
            refine ⟨?_, ?_⟩
            · intro f hf
              rcases List.mem_cons.1 hf with rfl | hf
              · refine ⟨recs, hmem, ?_⟩
                rw [j2 folder hnd.1, fold_members]
                have ha := hacc (folder, members) (by simp)
                simp only at ha
                rw [ha]
                by_cases hfl : recs.flatten = []
                · rw [if_neg (by simp [hfl]), hfl]; rfl
                · rw [if_pos ⟨rfl, hfl⟩]; simp
              · exact j1 f hf
            · intro k hk
              simp only [List.map_cons, List.mem_cons, not_or] at hk
              rw [j2 k hk.2, fold_members, if_neg (by simp [hk.1])]
  obtain ⟨m1, m2⟩ := main folders [] hnd (by simp)
  exact ⟨m1, fun out ho => (m2 out ho).1⟩

example : collectFolders (R := ℕ) (E := String) "none" [("a", [.ok [1], .ok [2, 3]]), ("b", [.ok [4]])] [] =
    .ok [("a", [1, 2, 3]), ("b", [4])] := rfl

example : collectFolders (R := ℕ) (E := String) "none" [("a", [.ok [1]]), ("b", [.error "missing"]), ("c", [.ok [4]])] [] =
    .error "missing" := rfl

end GeNSIT
