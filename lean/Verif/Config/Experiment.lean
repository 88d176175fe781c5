import Verif.Config.Validate

/-!
# Validation for one experiment

Model of `Config.experiment_validate` (`/repo/gensit/config.py:387-446`).  The experiment schema is given with its key paths
already split at `>` and numeric parts turned into indices (`config.py:402-407`).
-/

namespace GeNSIT

/-- The three trees that `experiment_validate` edits: the settings, the schema and the parameter file. -/
structure Trees where
  settings : Cfg
  schema : Cfg
  params : Cfg

/-- An entry that deletes: the path ends in `exclude` and its value is truthy (`config.py:414`). -/
def excludes (e : List Key × Cfg) : Bool := e.1.getLast? == some (.str "exclude") && e.2.truthy

/-- One entry of the experiment schema (`config.py:409-444`). -/
def adjustEntry (e : List Key × Cfg) (t : Trees) : Except VErr Trees :=
  if e.1.contains (.str "dtype") then .ok t
  else if excludes e then
    match pathDelete t.settings e.1.dropLast with
    | none => .error .raised
    | some (s', _) =>
      match pathDelete t.schema e.1.dropLast with
      | none => .error .raised
      | some (c', _) =>
        match pathDelete t.params e.1.dropLast with
        | none => .error .raised
        | some (p', _) => .ok ⟨s', c', p'⟩
  else
    match pathModify t.schema e.2 e.1 with
    | none => .error .raised
    | some (_, false) => .error .raised
    | some (c', true) => if (pathGet c' e.1).isSome then .ok { t with schema := c' } else .error .raised

/-- The loop over the experiment schema. -/
def adjust : List (List Key × Cfg) → Trees → Except VErr Trees
  | [], t => .ok t
  | e :: es, t => match adjustEntry e t with
    | .error x => .error x
    | .ok t' => adjust es t'

/-- `settings['experiments'][0]['type']` when there is exactly one experiment (`config.py:388-395`); `none` = exception. -/
def experimentType (s : Cfg) : Option Cfg :=
  match s.getItem (.str "experiments") with
  | some (.node _ [e]) => match (Cfg.node true [e]).getItem (.idx 0) with
    | some x => x.getItem (.str "type")
    | none => none
  | _ => none

/-- `experiment_validate` (`config.py:387-446`): the state and the trees afterwards.  `X` maps experiment types to their
schemas.  A type that is not a text counts as unknown (an unhashable one would raise). -/
def experimentValidate (chk : ValueCheck) (X : List (String × List (List Key × Cfg))) (t : Trees) : Except VErr (VState × Trees) :=
  match experimentType t.settings with
  | none => .error .raised
  | some ty =>
    let adjusted := match ty with
      | .leaf (.str name) => match X.lookup name with
        | some entries => adjust entries t
        | none => .ok t
      | _ => .ok t
    match adjusted with
    | .error e => .error e
    | .ok t' => match validateConfig chk t'.params t'.schema t'.settings with
      | .error e => .error e
      | .ok st => .ok (st, t')

end GeNSIT
