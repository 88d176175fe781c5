import Verif.Outputs.Props

/-!
# The data collection as a container (C110) and the summaries taken from it (C112)

`DataCollection` (`gensit/outputs.py:1792-2166`), `Outputs.get`, `Outputs.pop`, `Outputs.strip_data`
(`outputs.py:233-328`) and the loops of `OutputSummary` over a collection (`outputs.py:2299-2430`).

A collection is the list of its sample attributes, in the order in which they were set, each with the list of its group arrays.
`none` stands for the empty placeholder `[]` that `__setitem__` stores in the other groups of a new sample. `A` is the type of
data arrays, whose content plays no role here. Not modelled: the copying done by `deepcopy` (values are immutable here), logging,
and the attribute `logger`, except where it matters (`assignRow`).
-/

set_option linter.unusedSimpArgs false
set_option linter.unusedVariables false

namespace GeNSIT

/-- What is raised. -/
inductive CollError where
  | keyError | indexError | typeError | attributeError | invalidDataNames | irregularSize
deriving DecidableEq, Repr

/-- `vars(collection)` restricted to the sample names, and `data_length` (`outputs.py:1808`, `2103-2104`). -/
structure Coll (A : Type) where
  dataLength : Nat
  samples : List (String × List (Option A))
deriving DecidableEq, Repr

/-- `xs[i]` of a Python list: negative positions count from the end. -/
def pyItem {α : Type} (xs : List α) (i : Int) : Option α :=
  if 0 ≤ i then xs[i.toNat]? else if (-i).toNat ≤ xs.length then xs[xs.length - (-i).toNat]? else none

/-- `xs[i] = v`; `none` = `IndexError`. -/
def pySetItem {α : Type} (xs : List α) (i : Int) (v : α) : Option (List α) :=
  if 0 ≤ i then (if i.toNat < xs.length then some (xs.set i.toNat v) else none)
  else if (-i).toNat ≤ xs.length then some (xs.set (xs.length - (-i).toNat) v) else none

/-- `coll[index]` (`outputs.py:2042-2056`): every sample is replaced by its element; an index at or beyond the length of a
sample is a `KeyError`, a negative index below `-len` an `IndexError` of the list. The argument `sample_names` is computed and
then ignored by the code. -/
def getItem {A : Type} (index : Int) : List (String × List (Option A)) → Except CollError (List (String × Option A))
  | [] => .ok []
  | (name, xs) :: rest =>
    if (xs.length : Int) ≤ index then .error .keyError
    else match pyItem xs index with
      | none => .error .indexError
      | some x => (getItem index rest).map ((name, x) :: ·)

/-- Replace the value of an attribute. -/
def putSample {A : Type} (name : String) (v : List (Option A)) : List (String × List (Option A)) → List (String × List (Option A))
  | [] => [(name, v)]
  | (n, xs) :: rest => if n = name then (name, v) :: rest else (n, xs) :: putSample name v rest

/-- The value of an attribute. -/
def findSample {A : Type} (name : String) : List (String × List (Option A)) → Option (List (Option A))
  | [] => none
  | (n, xs) :: rest => if n = name then some xs else findSample name rest

/-- `coll[index] = new_data` (`outputs.py:2058-2086`) for an object with the attributes `new`, in the order of `vars(new_data)`.
`known` is `DATA_SCHEMA`. The collection is changed attribute by attribute, so that what was done before an exception remains. -/
def setItem {A : Type} (known : String → Bool) (index : Int) : List (String × A) → Coll A → Coll A × Except CollError Unit
  | [], c => (c, .ok ())
  | (name, v) :: rest, c =>
    if known name then
      match findSample name c.samples with
      | some xs =>
        if (xs.length : Int) ≤ index then (c, .error .keyError)
        else match pySetItem xs index (some v) with
          | none => (c, .error .indexError)
          | some xs' => setItem known index rest { c with samples := putSample name xs' c.samples }
      | none =>
        let blank := List.replicate c.dataLength none
        match pySetItem blank index (some v) with
        | none => ({ c with samples := putSample name blank c.samples }, .error .indexError)
        | some xs' => setItem known index rest { c with samples := putSample name xs' c.samples }
    else (c, .error .invalidDataNames)

/-- `coll[i] = row` where `row` was itself obtained by indexing a collection: `vars(row)` begins with the attributes `logger` and
`data_length` set by the constructor (`outputs.py:1800-1808`), which are not sample names. -/
def assignRow {A : Type} (known : String → Bool) (index : Int) (logger : A) (dataLength : A) (row : List (String × A))
    (c : Coll A) : Coll A × Except CollError Unit :=
  setItem known index (("logger", logger) :: ("data_length", dataLength) :: row) c

/-- `coll.__delitem__(index, sample_names)` (`outputs.py:2088-2099`); the statement `del coll[index]` passes no sample names
(`none`), and `set(None)` is a `TypeError`. Names that are not in the collection are dropped by the intersection; the order of
the set is given by the list. -/
def delItem {A : Type} (index : Int) : Option (List String) → Coll A → Coll A × Except CollError Unit
  | none, c => (c, .error .typeError)
  | some [], c => (c, .ok ())
  | some (name :: names), c =>
    match findSample name c.samples with
    | none => delItem index (some names) c
    | some xs =>
      if (xs.length : Int) ≤ index then (c, .error .keyError)
      else if 0 ≤ index then delItem index (some names) { c with samples := putSample name (xs.eraseIdx index.toNat) c.samples }
      else if (-index).toNat ≤ xs.length then
        delItem index (some names) { c with samples := putSample name (xs.eraseIdx (xs.length - (-index).toNat)) c.samples }
      else (c, .error .indexError)
termination_by names => names.elim 0 (·.length)

/-- `sizes()` (`outputs.py:2126-2143`): the number of groups of every sample. -/
def collSizes {A : Type} (c : Coll A) : List Nat := c.samples.map fun s => s.2.length

/-- `size()` (`outputs.py:2145-2146`). -/
def collSize {A : Type} (c : Coll A) : Nat := (collSizes c).sum

/-- `len(coll)` (`outputs.py:2148-2160`): the common size, or an exception. -/
def collLen {A : Type} (c : Coll A) : Except CollError Nat :=
  if (collSizes c).dedup.length ≤ 1 then .ok ((collSizes c).headD 0) else .error .irregularSize

/-- `list(coll)`, i.e. the sequence protocol with `__getitem__`: positions `0, 1, …` until an `IndexError` ends the loop; any
other exception leaves the loop. `fuel` bounds the number of steps, `none` = not finished after that many steps. -/
def iterate {A : Type} (c : Coll A) : (fuel : Nat) → (i : Nat) → Option (List (List (String × Option A)) × Option CollError)
  | 0, _ => none
  | fuel + 1, i => match getItem (i : Int) c.samples with
    | .error .indexError => some ([], none)
    | .error e => some ([], some e)
    | .ok row => (iterate c fuel (i + 1)).map fun r => (row :: r.1, r.2)

/-! ## `Outputs` -/

/-- `Outputs.get(index)` as far as the data is concerned (`outputs.py:233-236`). -/
def outputsGet {A : Type} (c : Coll A) (index : Int) : Except CollError (List (String × Option A)) := getItem index c.samples

/-- `Outputs.pop()` (`outputs.py:275-288`): the collection after the call and the element, `none` when the collection is empty.
`safe_delete(self.data[0])` deletes the function's local name for a copy (`utils/misc_utils.py:633-637`). -/
def outputsPop {A : Type} (c : Coll A) : Coll A × Except CollError (Option (List (String × Option A))) :=
  match collLen c with
  | .error e => (c, .error e)
  | .ok 0 => (c, .ok none)
  | .ok _ => (c, (outputsGet c 0).map some)

/-- Elements of a list whose positions are in `keep`. -/
def keepIds {α : Type} (keep : List Nat) (xs : List α) : List α :=
  (xs.zipIdx.filter fun p => keep.contains p.2).map (·.1)

/-- The part of `Outputs.strip_data` that concerns the collection (`outputs.py:300-324`). -/
def stripOutputs {A : Type} (keepOutputs : List String) (keepCollectionIds : List Nat) (c : Coll A) : Coll A :=
  if keepOutputs.isEmpty then
    if keepCollectionIds.isEmpty then ⟨0, []⟩
    else { c with samples := c.samples.map fun s => (s.1, keepIds keepCollectionIds s.2) }
  else if keepCollectionIds.isEmpty then { c with samples := c.samples.filter fun s => keepOutputs.contains s.1 }
  else { c with samples := c.samples.map fun s => if keepOutputs.contains s.1 then s else (s.1, keepIds keepCollectionIds s.2) }

/-! ## `OutputSummary` -/

/-- Run a sequence of calls, stopping at the first exception. -/
def collectCalls {α β : Type} (call : α → Except CollError β) : List α → Except CollError (List β)
  | [] => .ok []
  | a :: as => match call a with
    | .error e => .error e
    | .ok b => (collectCalls call as).map (b :: ·)

/-- `pop` called `n` times. -/
def popTimes {A : Type} : Nat → Coll A → Except CollError (List (Option (List (String × Option A))))
  | 0, _ => .ok []
  | n + 1, c => match outputsPop c with
    | (_, .error e) => .error e
    | (c', .ok r) => (popTimes n c').map (r :: ·)

/-- The elements handed to `get_experiment_metadata` by `get_experiment_metadata_sequentially` and, in the order of submission,
by `get_experiment_metadata_concurrently` (`outputs.py:2362-2410`). -/
def summaryElements {A : Type} (pop : Bool) (c : Coll A) : Except CollError (List (Option (List (String × Option A)))) :=
  match collLen c with
  | .error e => .error e
  | .ok n =>
    if pop then popTimes n c
    else collectCalls (fun j : Nat => (outputsGet c (j : Int)).map some) (List.range n)

/-- `experiment_metadata[folder] = np.append(experiment_metadata[folder], metadata, axis = 0)`, or a new entry. -/
def addRows {R : Type} (folder : String) (rows : List R) : List (String × List R) → List (String × List R)
  | [] => [(folder, rows)]
  | (f, old) :: rest => if f = folder then (f, old ++ rows) :: rest else (f, old) :: addRows folder rows rest

/-- `collect_metadata` (`outputs.py:2299-2321`): the rows of every folder, one result after the other, empty results left out. -/
def collectMetadata {R : Type} (folders : List (String × List (List R))) : List (String × List R) :=
  folders.foldl (fun acc f => f.2.foldl (fun acc rows => if rows.isEmpty then acc else addRows f.1 rows acc) acc) []

end GeNSIT
