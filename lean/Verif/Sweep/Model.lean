import Verif.Config.Model
import Mathlib.Data.List.Lex
import Mathlib.Data.Char
import Mathlib.Data.List.Sort
import Mathlib.Algebra.Order.Field.Rat

/-!
# Parameter sweeps

Model of the sweep functions of `/repo/gensit/config.py`: `parse_sweep_params` (lengths), `prepare_sweep_configurations`,
`prepare_experiment_config`, `get_sweep_id`, `get_group_id`, `slice_sweep_configurations`, and of `expand_tuple` and
`sigma_to_noise_regime` of `/repo/gensit/utils/misc_utils.py`.
-/

namespace GeNSIT

/-! ### Configurations -/

/-- A value or a tuple of such (only tuples are expanded; Python lists count as values). -/
inductive PVal (V : Type) where
  | item (v : V)
  | tup (l : List (PVal V))

mutual
/-- One element of the loop of `expand_tuple` (`misc_utils.py:1115-1122`). -/
def PVal.expand {V : Type} : PVal V → List V
  | .item v => [v]
  | .tup l => expandTuple l

/-- `expand_tuple` (`misc_utils.py:1115-1122`). -/
def expandTuple {V : Type} : List (PVal V) → List V
  | [] => []
  | x :: rest => x.expand ++ expandTuple rest
end

/-- `itertools.product(*lists)`. -/
def product {α : Type} : List (List α) → List (List α)
  | [] => [[]]
  | l :: ls => l.flatMap fun (x : α) => (product ls).map fun (r : List α) => x :: r

/-- `zip(*lists)`: rows, up to the shortest list; no list gives no row. -/
def zipRows {α : Type} : List (List α) → List (List α)
  | [] => []
  | [l] => l.map fun (x : α) => [x]
  | l :: l' :: ls => List.zipWith (fun (x : α) (r : List α) => x :: r) l (zipRows (l' :: ls))

/-- `' === '.join(map(str, row))` (`config.py:967`, `:995`). -/
def rowString {V : Type} (str : V → List Char) (row : List V) : List Char :=
  List.intercalate " === ".toList (row.map str)

/-- Rows kept by `unique_elem_indices` (`config.py:966-971`): the row at an index is kept iff that index is the first
occurrence of some string; the iteration order of the set does not matter. -/
def uniqueRows {V : Type} (str : V → List Char) (rows : List (List V)) : List (List V) :=
  let strs := rows.map (rowString str)
  let idxs := strs.map fun (s : List Char) => strs.idxOf s
  (rows.zipIdx.filter fun (e : List V × Nat) => decide (e.2 ∈ idxs)).map Prod.fst

/-- `prepare_sweep_configurations` (`config.py:947-1010`): the configurations; `none` = `DuplicateData` raised.
`iso`: the value lists of the isolated sweeps; `coup`: for each target name, the value lists of its parameters. -/
def sweepConfigs {V : Type} (str : V → List Char) (iso : List (List (PVal V))) (coup : List (List (List V))) :
    Option (List (List V)) :=
  let coupled : List (List (PVal V)) := coup.map fun (lists : List (List V)) =>
    (uniqueRows str (zipRows lists)).map fun (row : List V) => PVal.tup (row.map PVal.item)
  let confs : List (List (PVal V)) :=
    if coup.isEmpty then (if iso.isEmpty then [] else product iso) else product (iso ++ coupled)
  let expanded := confs.map expandTuple
  if (expanded.map (rowString str)).Nodup then some expanded else none

/-! ### Lengths of coupled sweeps -/

/-- One coupled parameter: its settings path and its values. -/
structure CoupledParam (V : Type) where
  path : List Key
  values : List V

/-- `coupled_val_lens[target_name]` (`config.py:1037-1069`): a dictionary keyed by the *last* path component. -/
def valLens {V : Type} (params : List (CoupledParam V)) : List (Option Key × Nat) :=
  params.foldl (fun (acc : List (Option Key × Nat)) (c : CoupledParam V) =>
    (c.path.getLast?, c.values.length) :: acc.filter fun (e : Option Key × Nat) => decide (e.1 ≠ c.path.getLast?)) []

/-- `len(set(keypaths.values())) == 1` (`config.py:1071-1078`); `false` = exception. -/
def lensOk {V : Type} (params : List (CoupledParam V)) : Bool :=
  ((valLens params).map Prod.snd).eraseDups.length == 1

/-! ### Experiment configs -/

/-- One sweep parameter: its name (`'var'`) and its settings path. -/
structure SweepParam where
  var : Key
  path : List Key

/-- The loops of `prepare_experiment_config` (`config.py:1092-1117`): write the values one by one; `none` = exception
(also when the configuration is too short). -/
def applySweep : Cfg → List SweepParam → List Cfg → Option Cfg
  | s, [], _ => some s
  | _, _ :: _, [] => none
  | s, p :: ps, v :: vs =>
    match pathSet false s v p.path with
    | none => none
    | some (s', _) => applySweep s' ps vs

/-- The `sweep` dictionary built alongside. -/
def sweepDict (ps : List SweepParam) (vs : List Cfg) : List (Key × Cfg) :=
  (ps.zip vs).foldl (fun (acc : List (Key × Cfg)) (e : SweepParam × Cfg) => setEntry acc e.1.var e.2) []

/-- `prepare_experiment_config` (`config.py:1083-1120`), without `cast_to_str`: the new settings and the sweep. `ps`:
isolated parameters followed by the coupled ones, group by group. -/
def experimentConfig (s : Cfg) (ps : List SweepParam) (vs : List Cfg) : Option (Cfg × List (Key × Cfg)) :=
  match s.setItem (.str "sweep_mode") (.leaf (.bool false)) with
  | none => none
  | some s1 =>
    match s1.setItem (.str "export_samples") (.leaf (.bool true)) with
    | none => none
    | some s2 => (applySweep s2 ps vs).map fun (s3 : Cfg) => (s3, sweepDict ps vs)

/-! ### Sweep ids -/

/-- A sweep value as far as ids are concerned: `None`, a number, or something else (already printed). -/
inductive SVal where
  | none
  | num (q : ℚ)
  | other (s : List Char)
  deriving DecidableEq

/-- `sigma_to_noise_regime` (`misc_utils.py:1058-1071`), exact arithmetic. -/
def noiseRegime : SVal → List Char
  | .none => "learned".toList
  | .num q =>
    if q = 0 then "learned".toList
    else if (10000 : ℚ) ≤ 2 / (q * q) then "low".toList
    else if 0 < q then "high".toList
    else "learned".toList
  | .other s => if s = [] then "learned".toList else if s = "none".toList then "learned".toList else s

/-- The classification made by the physical model itself (`HarrisWilsonModel.py:83-92`) and written into the settings as
`noise_regime`: `learnt` says whether sigma is to be learnt; `none` = exception (a string that cannot be compared). -/
def modelRegime (learnt : Bool) : SVal → Option (List Char)
  | .none => some "variable".toList
  | .num q => if learnt then some "variable".toList else if (1 / 10 : ℚ) ≤ q then some "high".toList else some "low".toList
  | .other _ => if learnt then some "variable".toList else none

/-- First `'_'`-segment: `x.split('_')[0]`. -/
def segment (x : List Char) : List Char := x.takeWhile fun (c : Char) => decide (c ≠ '_')

/-- One component of the id (`config.py:498-505`); `strf` stands for `stringify(·, '[', ']', scientific=False)`. -/
def idComponent (strf : SVal → List Char) (val : List Char → SVal) (v : List Char) : List Char :=
  v ++ '_' :: (if v = "sigma".toList then strf (.other (noiseRegime (val v))) else strf (val v))

/-- `get_sweep_id` (`config.py:491-513`) of a non-empty sweep; `targets` is the *iteration order* of the set of target
names (unspecified in Python).  The sort is stable, by the first segment.  `os.path.join` of components that do not start
with `/`. -/
def sweepId (strf : SVal → List Char) (targets : List (List Char)) (val : List Char → SVal) : List Char :=
  let comps := (targets.filter fun (v : List Char) => decide (v ≠ "dataset".toList)).map (idComponent strf val)
  List.intercalate ['/'] (comps.insertionSort fun (a b : List Char) => segment a ≤ segment b)

/-! ### Group ids -/

/-- Swept dimensions: isolated names, and for each target name the names of its coupled parameters. -/
structure SweepDims where
  isolated : List String
  coupled : List (String × List String)

/-- `target_names_by_sweep_var` as filled by `parse_sweep_params` (`config.py:1034`, `:1070`): isolated names and target
names map to themselves, other coupled parameters are absent. -/
def SweepDims.targetOf (d : SweepDims) (v : String) : Option String :=
  if v ∈ d.isolated ∨ v ∈ d.coupled.map Prod.fst then some v else none

/-- `CORE_COORDINATES_DTYPES` (`static/global_variables.py:528-539`). -/
def coreCoordinates : List String := ["iter", "time", "origin", "destination", "seed", "alpha_range", "beta_range"]

/-- What one `gb` adds to `nonshared_coord_dims` (`config.py:585-609`). -/
def SweepDims.adds (d : SweepDims) (gb : String) : List String :=
  (if gb ∈ d.isolated then [gb] else []) ++
  (if gb ∈ d.coupled.map Prod.fst then gb :: (d.coupled.lookup gb).getD [] else []) ++
  (match d.targetOf gb with
   | none => []
   | some t => ((d.coupled.lookup t).getD []).flatMap fun (v : String) => [t, v])

/-- `nonshared_coord_dims`, as a set of names. -/
def SweepDims.nonshared (d : SweepDims) (groupBy : List String) : List String :=
  (groupBy ++ (d.isolated ++ d.coupled.map Prod.fst).filter fun (k : String) => decide (k ∉ coreCoordinates)).flatMap d.adds

/-- `shared_coord_dims` (`config.py:611-617`). -/
def SweepDims.shared (d : SweepDims) (groupBy : List String) : List String :=
  (d.isolated ++ d.coupled.flatMap Prod.snd).filter fun (v : String) => decide (v ∉ d.nonshared groupBy)

/-- `get_group_id` (`config.py:570-618`): both parts sorted, without repetitions. -/
def SweepDims.groupId (d : SweepDims) (groupBy : List String) : List String × List String :=
  ((d.nonshared groupBy).dedup.insertionSort (fun (a b : String) => a ≤ b),
   (d.shared groupBy).dedup.insertionSort (fun (a b : String) => a ≤ b))

/-! ### Slicing -/

/-- `math.isclose(a, b, rel_tol=1e-1)`, exact arithmetic. -/
def isClose (a b : ℚ) : Bool := decide (|a - b| ≤ 1 / 10 * max |a| |b|)

/-- The match of one coordinate (`config.py:1161-1166`); `none` = exception (`isclose` of a non-number). -/
def coordMatch (conf val : SVal) : Option Bool :=
  if val = .none ∨ conf = .none then some (decide (conf = val))
  else
    match val with
    | .other s => some (decide (conf = .other s))
    | .num b =>
      match conf with
      | .num a => some (isClose a b)
      | _ => none
    | .none => none

/-- The loop over the dimensions with its `break`. -/
def allMatch (sweep : String → Option SVal) : List (String × SVal) → Option Bool
  | [] => some true
  | (dim, conf) :: rest =>
    match sweep dim with
    | none => none
    | some val =>
      match coordMatch conf val with
      | none => none
      | some false => some false
      | some true => allMatch sweep rest

/-- `slice_sweep_configurations` (`config.py:1145-1174`); `none` = exception.  Parameter names are assumed distinct, so
that `grouped_sweep_param_names.index(dim)` is the position itself. -/
def sliceConfigs (names : List String) (groupBy : List String) (sweep : String → Option SVal) :
    List (List SVal) → Option (List (List SVal))
  | [] => some []
  | conf :: rest =>
    match allMatch sweep ((names.zip conf).filter fun (e : String × SVal) => decide (e.1 ∉ groupBy)) with
    | none => none
    | some b =>
      match sliceConfigs names groupBy sweep rest with
      | none => none
      | some r => some (if b then conf :: r else r)

end GeNSIT
