import Verif.Config.Model

/-!
# Validation of a configuration

Model of `Config.validate` and `Config.experiment_validate` (`/repo/gensit/config.py:387-446, 622-948`) on top of the settings
trees of `Verif.Config.Model`.  The checks of a single value against its schema entry (`instantiate_data_type(…).check()`) are a
parameter here; they are modelled in `Verif.Schema.Model`.  Log output is not modelled.
-/

namespace GeNSIT

/-- How a validation stops early: an uncaught exception, or `sys.exit()`, whose exit status is 0. -/
inductive VErr where
  | raised
  | exitZero
  deriving DecidableEq

/-- Outcome of `instantiate_data_type` and `check`: accepted, the constructor raises, or `check` raises. -/
inductive Checked where
  | ok
  | badConstructor
  | badCheck
  deriving DecidableEq

/-- The value check: schema entry, then value. -/
abbrev ValueCheck := Cfg → Cfg → Checked

/-- The attributes of a `Config` that validation changes (`config.py:89-97`). -/
structure VState where
  settings : Cfg
  active : Bool
  isolated : List (Key × List Key)
  coupled : List (Key × List (Key × List Key))

/-- The attributes after `reset` (`config.py:89-97`). -/
def VState.start (s : Cfg) : VState := ⟨s, false, [], []⟩

/-- `bool(v)`. -/
def Cfg.truthy : Cfg → Bool
  | .leaf (.str s) => s != ""
  | .leaf (.num x) => x != 0
  | .leaf (.bool b) => b
  | .leaf .null => false
  | .node _ es => !es.isEmpty

/-- `d[k] = v` for a dictionary of anything. -/
def keySet {α : Type} : List (Key × α) → Key → α → List (Key × α)
  | [], k, v => [(k, v)]
  | (k', v') :: rest, k, v => if k = k' then (k', v) :: rest else (k', v') :: keySet rest k v

/-- The value part of `path_get` (`config.py:298-320`): `None` if a key is missing. -/
def pathVal (s : Cfg) (p : List Key) : Cfg := if p.isEmpty then .leaf .null else (pathGetLoop s p).getD (.leaf .null)

/-- `has_sweep` (`config.py:251-263`).  The value of `path_get` is used even when it is not found. -/
def hasSweep (s : Cfg) (p : List Key) : Bool :=
  if p.contains (.str "sweep") then true
  else match pathVal s p with
    | .node false es => match es.lookup (.str "sweep") with
      | none => false
      | some (.leaf .null) => false
      | some _ => true
    | _ => false

/-- Check 1 (`config.py:694-700`): may the parameter be missing?  A schema entry that is a dictionary without `optional`
raises. -/
def optionalEntry : Cfg → Bool
  | .node false es => match es.lookup (.str "optional") with
    | none => false
    | some o => o.truthy
  | _ => true

/-- Check 2 (`config.py:703-715`); `false` = exception. -/
def sweepableEntry : Option Cfg → Bool
  | some (.node false es) => match es.lookup (.str "sweepable") with
    | none => false
    | some o => o.truthy
  | _ => false

/-- Check 5, coupled case (`config.py:757-795`).  `path` ends in `sweep`.  A target name that is not a string is treated as an
exception (the code would look for a list index). -/
def recordCoupled (path : List Key) (es : List (Key × Cfg)) (st : VState) : Except VErr VState :=
  match es.lookup (.str "target_name"), path.dropLast.getLast? with
  | some (.leaf (.str t)), some name =>
    if pathExists (.str t) st.settings false then
      match st.coupled.lookup (.str t) with
      | some grp => .ok { st with coupled := keySet st.coupled (.str t) (keySet grp name path.dropLast) }
      | none =>
        match st.isolated.lookup (.str t) with
        | some ip => .ok { st with coupled := keySet st.coupled (.str t) (keySet [(.str t, ip)] name path.dropLast) }
        | none =>
          match (pathFind (.str t) st.settings [] []).2 with
          | [] => .error .raised
          | tp :: _ => .ok { st with coupled := keySet st.coupled (.str t) (keySet [(.str t, tp)] name path.dropLast) }
    else .error .raised
  | _, _ => .error .raised

/-- Check 5, isolated case (`config.py:796-801`): the name is `key_path[-2]`, or `key_path[-3]` under `file`. -/
def recordIsolated (path : List Key) (st : VState) : Except VErr VState :=
  match path.dropLast.getLast? with
  | none => .error .raised
  | some name =>
    if name = .str "file" then
      match path.dropLast.dropLast.getLast? with
      | none => .error .raised
      | some name' => .ok { st with isolated := keySet st.isolated name' path.dropLast }
    else .ok { st with isolated := keySet st.isolated name path.dropLast }

/-- Checks 2 to 5 (`config.py:702-801`): a sweep configuration is given at `path`, whose last key is `sweep`. -/
def sweepGiven (sch : Cfg) (path : List Key) (given : Cfg) (st : VState) : Except VErr VState :=
  if sweepableEntry (pathGet sch path.dropLast) then
    match given with
    | .node false es =>
      if (es.lookup (.str "default")).isSome then
        if (es.lookup (.str "range")).isSome then
          if ((es.lookup (.str "coupled")).getD (.leaf (.bool false))).truthy then recordCoupled path es st
          else recordIsolated path st
        else
          match pathSet false st.settings (pathVal st.settings (path ++ [.str "default"])) path.dropLast with
          | some (s', true) =>
            if ((es.lookup (.str "coupled")).getD (.leaf (.bool false))).truthy then
              recordCoupled path es { st with settings := s' }
            else .ok { st with settings := s' }
          | _ => .error .raised
      else .error .raised
    | _ => .error .raised
  else .error .raised

/-- End of check 7 (`config.py:866-889`): the default is checked against the `default` entry of the sweep schema; every
failure ends in `sys.exit()`. -/
def checkDefault (chk : ValueCheck) (schVal : Cfg) (v : Cfg) (st : VState) : Except VErr VState :=
  match schVal.getItem (.str "default") with
  | none => .error .exitZero
  | some d => if chk d v = .ok then .ok st else .error .exitZero

/-- Check 7 (`config.py:807-889`) at a path that ends in `sweep`. -/
def sweepDefault (chk : ValueCheck) (sch : Cfg) (schVal : Cfg) (path : List Key) (found : Bool) (st : VState) :
    Except VErr VState :=
  if found then
    match (pathGet st.settings (path ++ [.str "default"])).or (pathGet st.settings path.dropLast) with
    | none => .error .raised
    | some v =>
      match pathSet false st.settings v path.dropLast with
      | some (s', true) => checkDefault chk schVal v { st with settings := s' }
      | _ => .error .raised
  else
    match pathGet st.settings path.dropLast with
    | some v => checkDefault chk schVal v st
    | none =>
      match pathGet sch path.dropLast with
      | some ps => if optionalEntry ps then .ok st else .error .raised
      | none => .ok st

/-- The value check of check 8 (`config.py:892-945`): here an exception of the constructor is not caught. -/
def checkValue (chk : ValueCheck) (schVal : Cfg) (v : Cfg) (st : VState) : Except VErr (VState × Bool) :=
  match chk schVal v with
  | .ok => .ok (st, false)
  | .badConstructor => .error .raised
  | .badCheck => .error .exitZero

/-- Check 8 (`config.py:891-945`).  The flag says that the parameters below have to be validated too. -/
def typeChecks (chk : ValueCheck) (schVal : Cfg) (path : List Key) (isDict : Bool) (given : Option Cfg) (st : VState) :
    Except VErr (VState × Bool) :=
  match given with
  | none => .ok (st, false)
  | some v =>
    if hasSweep st.settings path && !v.isDict then checkValue chk schVal v st
    else if hasSweep st.settings path && isDict then .ok (st, true)
    else checkValue chk schVal v st

/-- The checks of one parameter (`config.py:676-945`); `isDict` says whether the entry of the parameter file is a dictionary. -/
def leafCheck (chk : ValueCheck) (sch : Cfg) (path : List Key) (isDict : Bool) (st : VState) :
    Except VErr (VState × Bool) :=
  match pathGet sch path with
  | none => .error .raised
  | some schVal =>
    let given := pathGet st.settings path
    if !path.contains (.str "sweep") && given.isNone && !optionalEntry schVal then .error .raised
    else
      let isSweep := path.getLast? == some (.str "sweep")
      match (match given with
        | some v => if isSweep then sweepGiven sch path v st else .ok st
        | none => .ok st) with
      | .error e => .error e
      | .ok st1 =>
        let st2 := if path.getLast? == some (.str "sweep_mode") then { st1 with active := (pathVal st.settings path).truthy }
          else st1
        match (if isSweep && (!st2.active || given.isNone) then sweepDefault chk sch schVal path given.isSome st2
          else .ok st2) with
        | .error e => .error e
        | .ok st3 => typeChecks chk schVal path isDict given st3

mutual
/-- `validate` (`config.py:622-948`) of a part of the parameter file; `cur` is the shared list `key_path`, returned as the call
leaves it.  Iterating over a primitive raises; iterating over the characters of a string is not modelled. -/
def validateCfg (chk : ValueCheck) (sch : Cfg) : Cfg → List Key → VState → Except VErr (List Key × VState)
  | .leaf _, _, _ => .error .raised
  | .node _ es, cur, st => validateEntries chk sch es cur st

/-- The loop of `validate`. -/
def validateEntries (chk : ValueCheck) (sch : Cfg) : List (Key × Cfg) → List Key → VState → Except VErr (List Key × VState)
  | [], cur, st => .ok (cur, st)
  | e :: rest, cur, st =>
    match validateEntry chk sch e cur st with
    | .error e => .error e
    | .ok (cur', st') => validateEntries chk sch rest cur' st'

/-- One item of the loop (`config.py:630-948`).  `key_path.remove(k)` removes the first occurrence. -/
def validateEntry (chk : ValueCheck) (sch : Cfg) : Key × Cfg → List Key → VState → Except VErr (List Key × VState)
  | (k, .node true es), cur, st =>
    match validateElems chk sch es (cur ++ [k]) st with
    | .error e => .error e
    | .ok (cur', st') => .ok (cur'.erase k, st')
  | (k, .node false es), cur, st =>
    if k ≠ .str "sweep" then
      match validateEntries chk sch es (cur ++ [k]) st with
      | .error e => .error e
      | .ok (cur', st') => .ok (cur'.erase k, st')
    else
      match leafCheck chk sch (cur ++ [k]) true st with
      | .error e => .error e
      | .ok (st1, false) => .ok ((cur ++ [k]).erase k, st1)
      | .ok (st1, true) =>
        match validateEntries chk sch es (cur ++ [k]) st1 with
        | .error e => .error e
        | .ok (cur', st') => .ok (cur'.erase k, st')
  | (k, .leaf _), cur, st =>
    match leafCheck chk sch (cur ++ [k]) false st with
    | .error e => .error e
    | .ok (st1, _) => .ok ((cur ++ [k]).erase k, st1)

/-- The elements of a list (`config.py:638-651`). -/
def validateElems (chk : ValueCheck) (sch : Cfg) : List (Key × Cfg) → List Key → VState → Except VErr (List Key × VState)
  | [], cur, st => .ok (cur, st)
  | e :: rest, cur, st =>
    match validateElem chk sch e cur st with
    | .error e => .error e
    | .ok (cur', st') => validateElems chk sch rest cur' st'

/-- One element of a list. -/
def validateElem (chk : ValueCheck) (sch : Cfg) : Key × Cfg → List Key → VState → Except VErr (List Key × VState)
  | (k, v), cur, st =>
    match validateCfg chk sch v (cur ++ [k]) st with
    | .error e => .error e
    | .ok (cur', st') => .ok (cur'.erase k, st')
end

/-- `validate()` of a freshly reset configuration: parameter file, schema, settings. -/
def validateConfig (chk : ValueCheck) (params sch settings : Cfg) : Except VErr VState :=
  match validateCfg chk sch params [] (VState.start settings) with
  | .error e => .error e
  | .ok (_, st) => .ok st

end GeNSIT
