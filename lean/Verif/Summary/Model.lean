import Verif.Inputs.Lemmas

/-!
# Evaluating expressions for the summary (`gensit/outputs.py`, `OutputSummary.evaluate_expressions`)
-/

namespace GeNSIT

/-- What `eval` returns, as far as the code tells results apart (`gensit/outputs.py:2801-2875`): a labelled array with a `sweep`
dimension, as the list of its groups (`groupby('sweep')`: the sweep setting and the data of the group); a labelled array without it;
anything else. `D` stands for the extracted data. -/
inductive EvalResult (D : Type) where
  | swept (groups : List (List (String × String) × D))
  | array (d : D)
  | other (d : D)

/-- The values in a row of the summary. -/
inductive SumCell (D : Type) where
  | data (d : D)
  | text (s : String)
deriving DecidableEq

/-- A row of the summary. -/
abbrev SumRow (D : Type) := List (String × SumCell D)

/-- The rows gathered so far, by their id, in order of insertion (`evaluation_data`). -/
abbrev SumRows (D : Type) := List (String × SumRow D)

/-- `sweep_id` (`gensit/outputs.py:2814`). -/
def sweepRowId (name : String) (sweep : List (String × String)) : String :=
  " & ".intercalate ((sweep.filter fun kv => !(kv.1 == name || kv.1 == "sweep")).map fun kv => kv.1 ++ "_" ++ kv.2)

/-- `dict.update` with the items of `new`, in order. -/
def rowUpdate {D : Type} (row : SumRow D) (new : List (String × SumCell D)) : SumRow D :=
  new.foldl (fun r kv => inSet kv.1 kv.2 r) row

/-- One group of a swept result (`gensit/outputs.py:2806-2836`): a new row holds the expression, the data and the sweep setting (which
overrides); an existing row gets the data. -/
def gatherGroup {D : Type} (name expr : String) (rows : SumRows D) (g : List (String × String) × D) : SumRows D :=
  match rows.lookup (sweepRowId name g.1) with
  | none =>
    inSet (sweepRowId name g.1)
      (rowUpdate [(name ++ "_expression", .text expr), (name, .data g.2)] (g.1.map fun kv => (kv.1, .text kv.2))) rows
  | some row => inSet (sweepRowId name g.1) (inSet name (.data g.2) row) rows

/-- Adding one result to all rows (`gensit/outputs.py:2848-2852`, `2866-2870`): appended to what is there, or stored. `append` is
`list.append` on what the cell holds, `none` for the `AttributeError` on anything but a list. -/
def addToAll {D : Type} (append : D → D → Option D) (name : String) (d : D) : SumRows D → Option (SumRows D)
  | [] => some []
  | (sid, row) :: rest =>
    match addToAll append name d rest with
    | none => none
    | some rest' =>
      match row.lookup name with
      | none => some ((sid, inSet name (.data d) row) :: rest')
      | some (.text _) => none
      | some (.data d') => (append d' d).map fun d'' => (sid, inSet name (.data d'') row) :: rest'

/-- Gathering one result (`gensit/outputs.py:2801-2875`). `sweptOutputs` says whether the outputs come from a sweep, `expId` is the id of
the experiment. -/
def gather {D : Type} (append : D → D → Option D) (sweptOutputs : Bool) (expId : String) (rows : SumRows D) (name expr : String) :
    EvalResult D → Option (SumRows D)
  | .swept groups => some (groups.foldl (gatherGroup name expr) rows)
  | .array d =>
    (addToAll append name d rows).map fun rows' =>
      if sweptOutputs = false ∧ rows'.length ≤ 0 then inSet expId [(name, .data d)] rows' else rows'
  | .other d =>
    (addToAll append name d rows).map fun rows' =>
      if sweptOutputs = false ∨ rows'.length ≤ 0 then inSet expId [(name, .data d)] rows' else rows'

/-- The variables of the loop: the rows, the results by name (`evaluation_kwargs`) and the variable `evaluation`. -/
structure EvalState (D : Type) where
  rows : SumRows D
  env : List (String × EvalResult D)
  last : Option (EvalResult D)

/-- One iteration of the loop over the operations (`gensit/outputs.py:2760-2875`): an expression is evaluated if its name has no result
yet; if that fails the operation is skipped; otherwise the variable `evaluation` is gathered under the name. `eval env expr` is Python's
`eval` with the earlier results in scope (the other names in scope do not change). -/
def evalStep {D : Type} (eval : List (String × EvalResult D) → String → Option (EvalResult D)) (append : D → D → Option D)
    (sweptOutputs : Bool) (expId : String) (st : EvalState D) (op : String × String) : Option (EvalState D) :=
  if op.1 ∈ st.env.map (·.1) then
    match st.last with
    | none => none
    | some r => (gather append sweptOutputs expId st.rows op.1 op.2 r).map fun rows => { st with rows := rows }
  else
    match eval st.env op.2 with
    | none => some st
    | some r =>
      (gather append sweptOutputs expId st.rows op.1 op.2 r).map fun rows => ⟨rows, st.env ++ [(op.1, r)], some r⟩

/-- The loop. -/
def evalLoop {D : Type} (eval : List (String × EvalResult D) → String → Option (EvalResult D)) (append : D → D → Option D)
    (sweptOutputs : Bool) (expId : String) : List (String × String) → EvalState D → Option (EvalState D)
  | [], st => some st
  | op :: r, st =>
    match evalStep eval append sweptOutputs expId st op with
    | none => none
    | some st' => evalLoop eval append sweptOutputs expId r st'

/-- `evaluate_expressions` (`gensit/outputs.py:2757-2877`): the rows of the summary of one member of the collection; `none` for an
exception. -/
def evaluateExpressions {D : Type} (eval : List (String × EvalResult D) → String → Option (EvalResult D)) (append : D → D → Option D)
    (sweptOutputs : Bool) (expId : String) (ops : List (String × String)) : Option (List (SumRow D)) :=
  (evalLoop eval append sweptOutputs expId ops ⟨[], [], none⟩).map fun st => st.rows.map (·.2)

/-! ## The keyword arguments -/

/-- What reading a sample may do (`gensit/outputs.py:2652-2672`): give the data, raise one of the two exceptions that are skipped, or raise
another one, which ends the program. -/
inductive SampleRead (V : Type) where
  | value (v : V)
  | missing
  | error

/-- The first phase (`gensit/outputs.py:2648-2677`): all keys that name raw data are read; their expressions are not looked at. -/
def rawPhase {V : Type} (read : String → SampleRead V) : List String → List (String × V) → Option (List (String × V))
  | [], env => some env
  | k :: r, env =>
    match read k with
    | .value v => rawPhase read r (inSet k v env)
    | .missing => rawPhase read r env
    | .error => none

/-- The second phase (`gensit/outputs.py:2679-2740`): an expression is evaluated only if its key has no value yet; failures and `None`
(`some none`) are skipped. `eval env expr` is Python's `eval` with the arguments found so far in scope. (Creating objects for
expressions that contain `outputs.` is not modelled.) -/
def exprPhase {V : Type} (eval : List (String × V) → String → Option (Option V)) : List (String × String) → List (String × V) →
    List (String × V)
  | [], env => env
  | (k, e) :: r, env =>
    match env.lookup k with
    | some _ => exprPhase eval r env
    | none =>
      match eval env e with
      | some (some v) => exprPhase eval r (inSet k v env)
      | _ => exprPhase eval r env

/-- Both phases (`gensit/outputs.py:2643-2740`); `isRaw` tells the names of raw data (`DATA_SCHEMA`). -/
def keywordArgs {V : Type} (isRaw : String → Bool) (read : String → SampleRead V) (eval : List (String × V) → String → Option (Option V))
    (kwargs : List (String × String)) : Option (List (String × V)) :=
  (rawPhase read ((kwargs.map (·.1)).filter isRaw) []).map fun env => exprPhase eval (kwargs.filter fun kv => !isRaw kv.1) env

end GeNSIT
