import Verif.Outputs.Props
import Verif.Utils.Lemmas
import Mathlib.Data.List.Sort

/-!
# The cache of collected samples (C111): model

`Outputs.load` for an experiment with sweeps (`gensit/outputs.py:689-787`), `read_data_collection` (`1126-1221`),
`read_xr_data_sequentially` (`1223-1263`), `write_data_collection` (`1038-1082`), `read_xr_data`/`write_xr_data`
(`utils/misc_utils.py:73-115`) and the list case of the constructor of `DataCollection` (`outputs.py:1810-1851`).

The cache is the directory `sample_collections` of the experiment. Simplifications: a file holds one data array or, after an
interrupted write, nothing readable; a file that exists already is replaced (the code opens it with mode `a`, which overwrites the
variable and raises when its dimensions have changed; `C111_writes_new_files` shows that `load` never does this); the attribute
`arr_name` of a stored array is the sample name in its file name; a group identifier is evaluated as a decimal number (the code
calls `eval`), anything else raises; data types are not modelled. Sample names are lists of characters.
-/

set_option linter.unusedSimpArgs false
set_option linter.unusedVariables false

namespace GeNSIT

abbrev SName := List Char

/-- The directory: file name and content, `none` when the file cannot be read. -/
abbrev CacheDir := List (List Char × Option Sample)

/-- What `load` raises. -/
inductive LoadError where
  | unreadable  -- `MultiprocessorFailed` after `H5DataReadingFailed`
  | badIdentifier  -- exception of `eval` while sorting
  | attributeError  -- no array of a sample was collected
  | emptyData  -- `EmptyData`
deriving DecidableEq, Repr

/-- The suffix of a stored array. -/
def ncSuffix : List Char := ['.', 'n', 'c']

/-- The path written by `write_xr_data` for `group = [sam_name, collection_id]` (`misc_utils.py:90-95`). -/
def writtenFile (name : SName) (i : Nat) : List Char := pyJoin '>' [name, showNat i] ++ ncSuffix

/-- The path read by `read_xr_data` for `(sam_name, gid)` (`misc_utils.py:74-78`). -/
def readFile (name : SName) (gid : List Char) : List Char := name ++ '>' :: gid ++ ncSuffix

/-- `x.replace('.nc','')`. -/
def dropNc : List Char → List Char
  | '.' :: 'n' :: 'c' :: rest => dropNc rest
  | c :: rest => c :: dropNc rest
  | [] => []

/-- `group_id.split('>')[0]` and the identifiers `x.replace('.nc','')` of the other pieces (`outputs.py:1147-1150`). -/
def parseFile (file : List Char) : SName × List (List Char) :=
  match pySplit '>' file with
  | [] => ([], [])
  | name :: pieces => (name, pieces.map dropNc)

/-- `d.setdefault(name, ids).extend(ids)`: a new entry holds the identifiers twice. -/
def addIds (name : SName) (ids : List (List Char)) : List (SName × List (List Char)) → List (SName × List (List Char))
  | [] => [(name, ids ++ ids)]
  | (n, old) :: rest => if n = name then (n, old ++ ids) :: rest else (n, old) :: addIds name ids rest

/-- `samples_to_load_group_ids` before sorting (`outputs.py:1145-1150`); the listing is in the order of `os.walk`. -/
def groupIds (listing : List (List Char)) : List (SName × List (List Char)) :=
  listing.foldl (fun d file => addIds (parseFile file).1 (parseFile file).2 d) []

/-- `sorted(list(set(v)), key = eval)` (`outputs.py:1152`); like Python's, the sort is stable. -/
def sortIds (ids : List (List Char)) : Option (List (List Char)) :=
  if ids.all fun x => (pyNat x).isSome then some (ids.dedup.insertionSort fun a b => (pyNat a).getD 0 ≤ (pyNat b).getD 0) else none

/-- The sorted identifiers of every sample. -/
def sortedIds : List (SName × List (List Char)) → Option (List (SName × List (List Char)))
  | [] => some []
  | (n, ids) :: rest => match sortIds ids, sortedIds rest with
    | some s, some r => some ((n, s) :: r)
    | _, _ => none

/-- Value of a key of a dictionary. -/
def findKey {β : Type} (n : SName) : List (SName × β) → Option β
  | [] => none
  | (m, v) :: rest => if m = n then some v else findKey n rest

/-- Content of a file. -/
def fileContent (dir : CacheDir) (file : List Char) : Option (Option Sample) := findKey file dir

/-- `read_xr_data_sequentially` (`outputs.py:1223-1263`): the arrays of the listed groups; any failure is turned into
`MultiprocessorFailed`. `reslice` is the second slicing under the setting `slice` (`none` = the array is dropped). -/
def readArrays (reslice : SName → Sample → Option Sample) (dir : CacheDir) : List (SName × List Char) → Except LoadError (List (SName × Sample))
  | [] => .ok []
  | (name, gid) :: rest => match fileContent dir (readFile name gid) with
    | some (some x) => match readArrays reslice dir rest with
      | .error e => .error e
      | .ok r => .ok (match reslice name x with
        | some y => (name, y) :: r
        | none => r)
    | _ => .error .unreadable

/-- Combination of the members of a group: a single member is kept as it is (`outputs.py:1829-1851`, `2019-2039`), several
are merged by `xarray.combine_by_coords`, the parameter `combine`. -/
def combineGroup (combine : List Sample → Sample) : List Sample → Sample
  | [x] => x
  | g => combine g

/-- The samples of a collection. -/
abbrev Collected := SName → Option (List Sample)

/-- `DataCollection(data = arrays, group_by = …)` (`outputs.py:1810-1851`): the arrays are popped from the end of the list,
grouped one after the other by sample, and the groups are combined. `shared` gives the dimensions to be shared for a sample. -/
def initCollection (shared : SName → List String) (combine : List Sample → Sample) (arrays : List (SName × Sample)) : Collected :=
  let groups := arrays.reverse.foldl
    (fun (g : SName → Option (List (List Sample))) a n => if n = a.1 then some (groupSample (shared a.1) ((g a.1).getD []) a.2) else g n)
    (fun _ => none)
  fun n => (groups n).map (List.map (combineGroup combine))

/-- `read_data_collection` (`outputs.py:1126-1221`): the directory afterwards, and the collection with the names that were not
loaded. `names` is `sorted(self.output_names)`. When the directory is absent, or the reload is forced, it is removed and
nothing is loaded. -/
def readCollection (shared : SName → List String) (combine : List Sample → Sample) (reslice : SName → Sample → Option Sample)
    (force : Bool) (dir : Option CacheDir) (names : List SName) : Option CacheDir × Except LoadError (Collected × List SName) :=
  match dir with
  | none => (none, .ok (fun _ => none, names))
  | some files =>
    if force then (none, .ok (fun _ => none, names))
    else (some files,
      match sortedIds (groupIds (files.map (·.1))) with
      | none => .error .badIdentifier
      | some [] => .ok (fun _ => none, names)
      | some ids =>
        let toLoad := names.filter fun n => (findKey n ids).isSome
        let notLoaded := names.filter fun n => (findKey n ids).isNone
        let allGroups := toLoad.flatMap fun n => ((findKey n ids).getD []).map fun gid => (n, gid)
        match readArrays reslice files allGroups with
        | .error e => .error e
        | .ok arrays => .ok (initCollection shared combine arrays, notLoaded))

/-- Create a file or replace its content. -/
def putFile (file : List Char) (x : Option Sample) : CacheDir → CacheDir
  | [] => [(file, x)]
  | (f, y) :: rest => if f = file then (f, x) :: rest else (f, y) :: putFile file x rest

/-- The groups of a sample computed from the arrays of the sweeps (`outputs.py:741-768`). -/
def freshGroups (shared : SName → List String) (combine : List Sample → Sample) (raw : SName → List Sample) (n : SName) : List Sample :=
  (groupSamples (shared n) (raw n)).map (combineGroup combine)

/-- The files written for one sample, in order (`outputs.py:1046-1067`). -/
def writesOf (n : SName) (groups : List Sample) : List (List Char × Sample) :=
  groups.zipIdx.map fun g => (writtenFile n g.2, g.1)

/-- Write files one after the other. -/
def putFiles (writes : List (List Char × Sample)) (dir : CacheDir) : CacheDir :=
  writes.foldl (fun d w => putFile w.1 (some w.2) d) dir

/-- The loop over the samples that were not loaded (`outputs.py:741-783`): group, combine, write. A sample of which no array was
collected has no attribute in the collection (`outputs.py:1981-1984`). -/
def collectMissing (shared : SName → List String) (combine : List Sample → Sample) (raw : SName → List Sample) :
    List SName → CacheDir → Collected → CacheDir × Except LoadError Collected
  | [], dir, c => (dir, .ok c)
  | n :: ns, dir, c =>
    if (raw n).isEmpty then (dir, .error .attributeError)
    else collectMissing shared combine raw ns (putFiles (writesOf n (freshGroups shared combine raw n)) dir)
      (fun m => if m = n then some (freshGroups shared combine raw n) else c m)

/-- `load` of an experiment with sweeps (`outputs.py:711-815`), up to the stacking of the sweep dimensions. `raw n` are the
arrays of sample `n` collected from the sweeps under the present settings, in the order of the sweeps. -/
def loadSweeps (shared : SName → List String) (combine : List Sample → Sample) (reslice : SName → Sample → Option Sample)
    (raw : SName → List Sample) (force : Bool) (dir : Option CacheDir) (names : List SName) :
    Option CacheDir × Except LoadError Collected :=
  match readCollection shared combine reslice force dir names with
  | (dir', .error e) => (dir', .error e)
  | (dir', .ok (c, missing)) =>
    let r := if missing.isEmpty then (dir', Except.ok c)
      else
        let r := collectMissing shared combine raw missing (dir'.getD []) c
        (some r.1, r.2)
    match r with
    | (d, .error e) => (d, .error e)
    | (d, .ok c') => (d, if names.all fun n => ((c' n).getD []).isEmpty then .error .emptyData else .ok c')

/-- The directory left behind when the process dies after `k` of the files `writes` were written and, if `torn`, while the next
one was being written. -/
def crashDir (dir : CacheDir) (writes : List (List Char × Sample)) (k : Nat) (torn : Bool) : CacheDir :=
  let d := putFiles (writes.take k) dir
  match torn, writes[k]? with
  | true, some w => putFile w.1 none d
  | _, _ => d

end GeNSIT
