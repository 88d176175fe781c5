import Verif.Config.Model

/-!
# Discovery of the swept parameters

Model of `deep_walk` (`/repo/gensit/static/global_variables.py:6-20`) and of `Config.find_sweep_key_paths`
(`/repo/gensit/config.py:515-568`), which looks for the swept parameters of a settings tree.
-/

namespace GeNSIT

mutual
/-- `deep_walk` (`global_variables.py:6-20`): the yielded lists, split into the keys and the final value.  The positions
of list elements are not part of the keys. -/
def deepWalk (pre : List Key) : Cfg → List (List Key × Cfg)
  | .leaf a => [(pre, .leaf a)]
  | .node true es => [(pre, .node true es)]
  | .node false es => deepWalkItems pre es

/-- The loop `for key, value in indict.items()` (`global_variables.py:9-18`). -/
def deepWalkItems (pre : List Key) : List (Key × Cfg) → List (List Key × Cfg)
  | [] => []
  | e :: rest => deepWalkItem pre e ++ deepWalkItems pre rest

/-- One item: a dictionary is walked, the elements of a list are walked one by one, anything else is yielded
(`global_variables.py:10-18`). -/
def deepWalkItem (pre : List Key) : Key × Cfg → List (List Key × Cfg)
  | (k, .leaf a) => [(pre ++ [k], .leaf a)]
  | (k, .node true es) => deepWalkElems (pre ++ [k]) es
  | (k, .node false es) => deepWalkItems (pre ++ [k]) es

/-- `for v in value: for d in deep_walk(v, pre + [key])` (`global_variables.py:14-16`). -/
def deepWalkElems (pre : List Key) : List (Key × Cfg) → List (List Key × Cfg)
  | [] => []
  | e :: rest => deepWalkElem pre e ++ deepWalkElems pre rest

/-- One element of a list (`global_variables.py:15`). -/
def deepWalkElem (pre : List Key) : Key × Cfg → List (List Key × Cfg)
  | (_, v) => deepWalk pre v
end

/-- `value == s` for a string `s`. -/
def Cfg.isStr (s : String) : Cfg → Bool
  | .leaf (.str t) => t == s
  | _ => false

/-- Python truthiness of a stored value. -/
def Cfg.isTruthy : Cfg → Bool
  | .leaf (.str t) => t != ""
  | .leaf (.num x) => x != 0
  | .leaf (.bool b) => b
  | .leaf .null => false
  | .node _ es => !es.isEmpty

/-- `d[k] = v`. -/
def putKey {β : Type} : List (Key × β) → Key → β → List (Key × β)
  | [], k, v => [(k, v)]
  | (k', v') :: rest, k, v => if k = k' then (k', v) :: rest else (k', v') :: putKey rest k v

/-- `isolated_sweep_paths` and `coupled_sweep_paths` (`config.py:53-54` region; written at `config.py:532-552`). -/
structure SweepPaths where
  isolated : List (Key × List Key)
  coupled : List (Key × List (Key × List Key))

/-- `"sweep" in key_val_path and "range" in key_val_path` (`config.py:520`). -/
def isSweepPath (e : List Key × Cfg) : Bool :=
  (e.1.contains (.str "sweep") || e.2.isStr "sweep") && (e.1.contains (.str "range") || e.2.isStr "range")

/-- `key_val_path[:sweep_indx]` (`config.py:522`, `536`, `552`). -/
def beforeSweep (p : List Key) : List Key := p.takeWhile fun (k : Key) => decide (k ≠ .str "sweep")

/-- `key_val_path[sweep_indx-1] if key_val_path[sweep_indx-1] != 'file' else key_val_path[sweep_indx-2]` (`config.py:535`,
`551`).  Simplification: a sweep with nothing above it (where Python's negative index wraps around to the value) is
reported as an exception. -/
def sweptName (q : List Key) : Option Key :=
  match q.reverse with
  | [] => none
  | k :: rest => if k = .str "file" then rest.head? else some k

/-- `sweep_settings.get('coupled',False) and len(sweep_settings.get('target_name','')) > 0` and the target
(`config.py:529-531`): `none` = exception (`len` of a number, a boolean or `None`); `some none` = not coupled;
`some (some none)` = coupled to a non-empty list or dictionary, which no key equals; `some (some (some t))` = coupled
to `t`. -/
def coupledTarget (d : List (Key × Cfg)) : Option (Option (Option Key)) :=
  match d.lookup (.str "coupled") with
  | none => some none
  | some x =>
    if x.isTruthy then
      match d.lookup (.str "target_name") with
      | none => some none
      | some (.leaf (.str t)) => if t = "" then some none else some (some (some (.str t)))
      | some (.leaf _) => none
      | some (.node _ es) => if es.isEmpty then some none else some (some none)
    else some none

/-- The coupled branch (`config.py:537-549`). -/
def addCoupled (c : Cfg) (st : SweepPaths) (t n : Key) (q : List Key) : SweepPaths :=
  match st.coupled.lookup t with
  | some g => { st with coupled := putKey st.coupled t (putKey g n q) }
  | none =>
    match (pathFind t c [] []).2 with
    | [] => st
    | p0 :: _ => { st with coupled := putKey st.coupled t (putKey [(t, p0)] n q) }

/-- The body of the loop over the walk (`config.py:518-552`); `none` = exception. -/
def fileSweep (c : Cfg) (st : SweepPaths) (e : List Key × Cfg) : Option SweepPaths :=
  if isSweepPath e then
    match pathGet c (beforeSweep e.1 ++ [.str "sweep"]) with
    | some (.node false d) =>
      match coupledTarget d, sweptName (beforeSweep e.1) with
      | some none, some n => some { st with isolated := putKey st.isolated n (beforeSweep e.1) }
      | some (some none), some _ => some st
      | some (some (some t)), some n => some (addCoupled c st t n (beforeSweep e.1))
      | _, _ => none
    | _ => none
  else some st

/-- The loop (`config.py:518-552`). -/
def fileSweeps (c : Cfg) : SweepPaths → List (List Key × Cfg) → Option SweepPaths
  | st, [] => some st
  | st, e :: rest =>
    match fileSweep c st e with
    | none => none
    | some st' => fileSweeps c st' rest

/-- `find_sweep_key_paths` on freshly initialised path dictionaries (`config.py:515-559`). -/
def findSweeps (c : Cfg) : Option SweepPaths :=
  match fileSweeps c ⟨[], []⟩ (deepWalk [] c) with
  | none => none
  | some st =>
    some { st with isolated := st.isolated.filter fun (e : Key × List Key) => (st.coupled.lookup e.1).isNone }

/-- `sweep_param_names` (`config.py:561-568`). -/
def sweepParamNames (st : SweepPaths) : List Key :=
  st.isolated.map Prod.fst ++ st.coupled.flatMap fun (e : Key × List (Key × List Key)) => e.2.map Prod.fst

end GeNSIT
