import Mathlib.Data.Rat.Defs
import Mathlib.Algebra.Order.Ring.Rat
import Mathlib.Data.List.Basic

/-!
# Model of reading the input data (`gensit/inputs.py:30-244`, `391-462`)

`Inputs.__init__` with `synthetic_data = False` runs `read_data`. The content of a file is an array: its shape and its entries in
row-major order, as exact rationals (`float32` rounding and the parsing of text are not modelled; a file that is not found is
`none`). What is raised is an error value; the object does not exist then.

Not modelled: `*_mask` entries in the configuration (they are in `VALIDATION_SCHEMA` but in no configuration schema), files with an
unknown extension, the aliasing of `data.dims` with the dictionary of the configuration, logging.
-/

set_option linter.unusedSimpArgs false
set_option linter.unusedVariables false

namespace GeNSIT

/-- A NumPy array: its shape and its entries in row-major order. -/
structure InArr where
  shape : List Nat
  vals : List ℚ
deriving DecidableEq, Repr

/-- What `read_data` raises. -/
inductive InError where
  | noDataset | notFound | negative | indexError | typeError | keyError | dimsDiffer | cellsSubset
deriving DecidableEq, Repr

/-- One entry of `INPUT_SCHEMA` (`gensit/static/global_variables.py:286-461`) that is not empty: `validation` marks the entries of
`VALIDATION_SCHEMA`, `readable` is false for `dims`, whose schema has no `ndmin`. -/
structure Field where
  name : String
  axes : List Nat
  dims : List String
  positive : Bool
  validation : Bool
  readable : Bool
deriving DecidableEq, Repr

/-- An entry of `TRAIN_SCHEMA` without the key `positive`. -/
def trainField (name : String) (axes : List Nat) (dims : List String) : Field := ⟨name, axes, dims, true, false, true⟩

/-- `TRAIN_SCHEMA` without its empty entries (`margins`, `cells_subset`, `to_learn`, `true_parameters`, `dataset`), in order. -/
def trainSchema : List Field :=
  [trainField "origin_demand" [0] ["origin"],
   trainField "destination_demand" [1] ["destination"],
   trainField "origin_attraction_ts" [0] ["origin"],
   trainField "destination_attraction_ts" [0, 1] ["destination", "time"],
   trainField "cost_matrix" [0, 1] ["origin", "destination"],
   trainField "total_cost_by_origin" [0] ["origin"],
   trainField "ground_truth_table" [0, 1] ["origin", "destination"],
   trainField "grand_total" [] [],
   { name := "region_features", axes := [], dims := [], positive := false, validation := false, readable := true },
   { name := "origin_region_features", axes := [], dims := [], positive := false, validation := false, readable := true },
   { name := "destination_region_features", axes := [], dims := [], positive := false, validation := false, readable := true },
   trainField "adjacency_matrix" [0, 1] ["origin", "destination"],
   { name := "dims", axes := [], dims := [], positive := true, validation := false, readable := false }]

/-- `VALIDATION_SCHEMA` without the masks. -/
def validationSchema : List Field :=
  ["test_cells", "test_validation_cells", "validation_cells", "zero_train_cells", "train_cells"].map
    fun n => { name := n, axes := [], dims := [], positive := true, validation := true, readable := true }

/-- `INPUT_SCHEMA = {**TRAIN_SCHEMA, **VALIDATION_SCHEMA, **PLOT_SCHEMA}`. -/
def inputSchema : List Field :=
  trainSchema ++ validationSchema ++
    [{ name := "region_geometries", axes := [], dims := [], positive := false, validation := false, readable := true }]

/-- The dictionary `data.dims`: ordered, with `None` for what is not known yet. -/
abbrev DimMap := List (String × Option Nat)

/-- `d[k] = v` of a Python dictionary: an existing key keeps its place, a new one is appended. -/
def inSet {β : Type} (k : String) (v : β) : List (String × β) → List (String × β)
  | [] => [(k, v)]
  | (k', v') :: r => if k' = k then (k, v) :: r else (k', v') :: inSet k v r

/-- The default of `config.settings['inputs'].get("dims", …)` (line 113-117). -/
def defaultDims : DimMap := [("origin", none), ("destination", none), ("time", none)]

/-- The file named by an entry of `inputs.data`: a string, or a dictionary with an optional `file` (lines 121-122). -/
inductive Source where
  | name (file : String)
  | dict (file : Option String)
deriving DecidableEq, Repr

/-- `filename.get('file','') if isinstance(filename,dict) else filename`. -/
def Source.file : Source → String
  | .name f => f
  | .dict f => f.getD ""

/-- One entry of `inputs.data.margins` (line 394): its axes as a tuple, its file and its value. -/
structure MarginCfg where
  axis : List Nat
  file : String
  value : Option (List ℚ)
deriving DecidableEq, Repr

/-- The part of the configuration that `read_data` consults. -/
structure InCfg where
  hasDataset : Bool
  data : List (String × Source)
  dims : Option DimMap
  margins : Option (List MarginCfg)
  cellsSubset : Option String
  simParams : List (String × ℚ)
  hwParams : List (String × ℚ)
  toLearn : Option (List String)

/-- The files of the data set by name (`os.path.isfile` fails for the empty name, which denotes the directory). -/
abbrev InFiles := String → Option InArr

/-- `os.path.isfile(filepath)` and `read_file`. -/
def openFile (files : InFiles) (f : String) : Option InArr := if f = "" then none else files f

/-- The attributes of `data`, and `data.dims`. -/
structure InState where
  attrs : List (String × InArr)
  dims : DimMap
deriving DecidableEq, Repr

/-- Lines 137-139: the sizes of the array along its axes become the dimensions. -/
def updateDims (shape : List Nat) : List (Nat × String) → DimMap → Except InError DimMap
  | [], d => .ok d
  | (ax, dim) :: r, d =>
    match shape[ax]? with
    | none => .error .indexError
    | some n => updateDims shape r (inSet dim (some n) d)

/-- `data.dims[dim]` used as a number: a missing key is a `KeyError`, `None` a `TypeError`. -/
def dimOf (d : DimMap) (dim : String) : Except InError Nat :=
  match d.lookup dim with
  | none => .error .keyError
  | some none => .error .typeError
  | some (some n) => .ok n

/-- All pairs of an origin and a destination, row by row. -/
def cellList (n m : Nat) : List (Nat × Nat) := (List.range n).flatMap fun i => (List.range m).map fun j => (i, j)

/-- `np.array([[i,j] …])` (lines 143-147, 154-158); without any cell the array has shape `(0,)`. -/
def cellArray (L : List (Nat × Nat)) : InArr :=
  ⟨if L = [] then [0] else [L.length, 2], L.flatMap fun p => [(p.1 : ℚ), (p.2 : ℚ)]⟩

/-- `np.array([[i,j] for i in range(dims['origin']) for j in range(dims['destination'])])`. -/
def allTableCells (d : DimMap) : Except InError InArr := do
  let n ← dimOf d "origin"
  let m ← dimOf d "destination"
  return cellArray (cellList n m)

/-- The body of the loop over `INPUT_SCHEMA` (lines 119-151). -/
def readField (files : InFiles) (data : List (String × Source)) (f : Field) (st : InState) : Except InError InState :=
  match data.lookup f.name with
  | none => .ok st
  | some src =>
    match openFile files src.file with
    | some a =>
      if f.readable = false then .error .keyError
      else if f.positive && a.vals.any (fun v => decide (v < 0)) then .error .negative
      else match updateDims a.shape (f.axes.zip f.dims) st.dims with
        | .error e => .error e
        | .ok d => .ok ⟨inSet f.name a st.attrs, d⟩
    | none =>
      if f.validation then
        if f.name = "test_cells" then
          match allTableCells st.dims with
          | .error e => .error e
          | .ok c => .ok { st with attrs := inSet f.name c st.attrs }
        else .ok { st with attrs := inSet f.name ⟨[0], []⟩ st.attrs }
      else .error .notFound

/-- The loop over `INPUT_SCHEMA`. -/
def readFields (files : InFiles) (data : List (String × Source)) : List Field → InState → Except InError InState
  | [], st => .ok st
  | f :: r, st =>
    match readField files data f st with
    | .error e => .error e
    | .ok st' => readFields files data r st'

/-- Lines 152-158: all cells are test cells if none are given. -/
def defaultTestCells (st : InState) : Except InError InState :=
  match st.attrs.lookup "test_cells" with
  | some _ => .ok st
  | none =>
    match allTableCells st.dims with
    | .error e => .error e
    | .ok c => .ok { st with attrs := inSet "test_cells" c st.attrs }

/-- A dictionary keyed by tuples of axes: `margins[tuplize(axis)] = v`. -/
def marginSet (k : List Nat) (v : List ℚ) : List (List Nat × List ℚ) → List (List Nat × List ℚ)
  | [] => [(k, v)]
  | (k', v') :: r => if k' = k then (k, v) :: r else (k', v') :: marginSet k v r

/-- The loop of `import_margins` (lines 394-413). If the file exists, the check of the imported NumPy array is
`torch.any(array <= 0)`, which raises a `TypeError`: `torch.any` accepts tensors only. -/
def importMarginList (files : InFiles) : List MarginCfg → List (List Nat × List ℚ) → Except InError (List (List Nat × List ℚ))
  | [], ms => .ok ms
  | c :: r, ms =>
    match openFile files c.file with
    | some _ => .error .typeError
    | none =>
      match c.value with
      | some v => importMarginList files r (marginSet c.axis v ms)
      | none => .error .notFound

/-- `import_margins` (lines 391-416). -/
def importMargins (files : InFiles) : Option (List MarginCfg) → Except InError (Option (List (List Nat × List ℚ)))
  | none => .ok none
  | some cs => (importMarginList files cs []).map some

/-- `import_cells_subset` (lines 418-462). The file is looked up without the input directory (`cellFile`). If it exists, the table
is allocated by `np.ones` with the *names* of the dimensions as its shape, which raises. -/
def importCellsSubset (cellFile : String → Bool) (cells : Option String) (st : InState) : Except InError Unit :=
  match cells with
  | none => .ok ()
  | some f =>
    if (st.attrs.lookup "ground_truth_table").isSome then .ok ()
    else if cellFile f then .error .cellsSubset else .ok ()

/-- `validate_dims` (lines 72-81) for one attribute. -/
def validField (st : InState) (f : Field) : Bool :=
  match st.attrs.lookup f.name with
  | none => true
  | some a => (f.axes.zip f.dims).all fun p =>
      match a.shape[p.1]?, st.dims.lookup p.2 with
      | some n, some (some m) => n == m
      | _, _ => false

/-- `validate_dims`. -/
def validateDims (st : InState) : Except InError Unit :=
  if trainSchema.all (validField st) then .ok () else .error .dimsDiffer

/-- `unpack_dims(data.dims, time_dims = False)` (`gensit/utils/misc_utils.py:1124-1134`): the values in the order of the
dictionary. -/
def tableShape (d : DimMap) : List (Option Nat) := (d.filter fun p => p.1 ≠ "time").map (·.2)

/-- A Boolean array of two axes. -/
abbrev Mask := List (List Bool)

/-- One entry of an index array as an array position; `none`: not a natural number. -/
def cellIndex (q : ℚ) : Option Nat := if q.den = 1 ∧ 0 ≤ q then some q.num.toNat else none

/-- The rows of an array of shape `(k, c)`. -/
def arrRows (k c : Nat) (vals : List ℚ) : List (List ℚ) := (List.range k).map fun i => (vals.drop (i * c)).take c

/-- `mask[tuple(cell)] = True` (`misc_utils.py:1617-1618`) for a mask of shape `(n, m)`: one index marks a whole row, none marks
everything. -/
def markCell (n m : Nat) (cell : List (Option Nat)) (mask : Mask) : Except InError Mask :=
  match cell with
  | [] => .ok (mask.map fun r => r.map fun _ => true)
  | [some i] => if i < n then .ok (mask.set i (List.replicate m true)) else .error .indexError
  | [some i, some j] =>
    if i < n ∧ j < m then .ok (mask.modify i fun r => r.set j true) else .error .indexError
  | _ => .error .indexError

/-- The loop of `create_mask`. -/
def markCells (n m : Nat) : List (List (Option Nat)) → Mask → Except InError Mask
  | [], mask => .ok mask
  | c :: r, mask =>
    match markCell n m c mask with
    | .error e => .error e
    | .ok mask' => markCells n m r mask'

/-- `create_mask(shape, index)` (`misc_utils.py:1614-1619`). -/
def createMask (n m : Nat) (index : InArr) : Except InError Mask :=
  match index.shape with
  | [k, c] => markCells n m ((arrRows k c index.vals).map fun r => r.map cellIndex) (List.replicate n (List.replicate m false))
  | [0] => .ok (List.replicate n (List.replicate m false))
  | _ => .error .typeError

/-- `create_cell_masks` (lines 225-244) for one of the validation attributes. A table of other than two dimensions is not modelled. -/
def maskOf (st : InState) (name : String) : Except InError (Option Mask) :=
  match st.attrs.lookup name with
  | none => .ok none
  | some a =>
    match tableShape st.dims with
    | [some n, some m] => (createMask n m a).map some
    | _ => .error .typeError

/-- `create_cell_masks`: the mask `name_mask` of each validation attribute. -/
def createCellMasks (st : InState) : List Field → Except InError (List (String × Mask))
  | [] => .ok []
  | f :: r =>
    match maskOf st f.name with
    | .error e => .error e
    | .ok none => createCellMasks st r
    | .ok (some k) => (createCellMasks st r).map ((f.name ++ "_mask", k) :: ·)

/-- `PARAMETER_DEFAULTS` (`global_variables.py`). -/
def parameterDefaults : List (String × ℚ) :=
  [("alpha", 1/2), ("beta", 1/2), ("delta", 1/10), ("kappa", 1), ("epsilon", 1), ("bmax", 1), ("noise_percentage", 3),
   ("sigma", 0), ("dt", 1/1000)]

/-- A number of the computed parameters; `none`: `inf` or `nan` of a division by zero. -/
abbrev Num := Option ℚ

/-- Division of NumPy numbers. -/
def numDiv (a b : ℚ) : Num := if b = 0 then none else some (a / b)

/-- `true_parameters` before `delta` and `kappa` are set (lines 178-192). -/
def givenParams (cfg : InCfg) : List (String × Num) :=
  (parameterDefaults.filter fun p => ¬ p.1 ∈ cfg.toLearn.getD ["alpha", "beta"]).map fun p =>
    (p.1, some (((cfg.hwParams.lookup p.1).orElse fun _ => cfg.simParams.lookup p.1).getD p.2))

/-- `min` of the entries; `none`: an empty array, for which `np.min` raises. -/
def minVal : List ℚ → Option ℚ
  | [] => none
  | [x] => some x
  | x :: r => (minVal r).map (min x)

/-- Lines 197-200: a value of the configuration counts if it is not negative. -/
def givenNonneg (ps : List (String × ℚ)) (k : String) : Option ℚ :=
  match ps.lookup k with
  | some v => if 0 ≤ v then some v else none
  | none => none

/-- The smallest zone, the total of the zones (lines 202-207). -/
def zoneSizes (st : InState) : Except InError (ℚ × ℚ) :=
  match st.attrs.lookup "destination_attraction_ts" with
  | some a =>
    match minVal a.vals with
    | some w => .ok (w, a.vals.sum)
    | none => .error .typeError
  | none => do
    let n ← dimOf st.dims "destination"
    if n = 0 then .error .typeError else return (1 / (n : ℚ) * (9/10), 1)

/-- The total flow (lines 209-214). -/
def totalFlow (st : InState) (grandTotal : Option ℚ) : ℚ :=
  match st.attrs.lookup "origin_demand" with
  | some a => a.vals.sum
  | none => grandTotal.getD 1

/-- Lines 216-223. -/
def deltaKappa (w W F : ℚ) (n : Except InError Nat) (delta kappa : Option ℚ) : Except InError (Num × Num) :=
  match delta, kappa with
  | none, none => do
    let n ← n
    let k := numDiv F (W - w * n)
    return (k.map (w * ·), k)
  | some d, none => do
    let n ← n
    return (some d, numDiv (F + d * n) W)
  | none, some k => .ok (some (k * w), some k)
  | some d, some k => .ok (some d, some k)

/-- The object after `read_data`. -/
structure InData where
  attrs : List (String × InArr)
  dims : DimMap
  margins : Option (List (List Nat × List ℚ))
  masks : List (String × Mask)
  grandTotal : Option ℚ
  params : List (String × Num)
deriving DecidableEq, Repr

/-- Lines 170-175: the grand total is the sum of the table, or else that of the file `grand_total`. -/
def grandTotalOf (st : InState) : Option ℚ :=
  match st.attrs.lookup "ground_truth_table" with
  | some t => some t.vals.sum
  | none => (st.attrs.lookup "grand_total").map fun a => a.vals.sum

/-- `read_data` (lines 103-194). -/
def readData (files : InFiles) (cellFile : String → Bool) (cfg : InCfg) : Except InError InData :=
  if cfg.hasDataset = false then .error .noDataset
  else do
    let st₀ ← readFields files cfg.data inputSchema ⟨[], cfg.dims.getD defaultDims⟩
    let st ← defaultTestCells st₀
    let margins ← importMargins files cfg.margins
    importCellsSubset cellFile cfg.cellsSubset st
    validateDims st
    let masks ← createCellMasks st validationSchema
    let (w, W) ← zoneSizes st
    let dk ← deltaKappa w W (totalFlow st (grandTotalOf st)) (dimOf st.dims "destination")
      (givenNonneg cfg.hwParams "delta") (givenNonneg cfg.hwParams "kappa")
    return { attrs := st.attrs, dims := st.dims, margins := margins, masks := masks, grandTotal := grandTotalOf st,
             params := inSet "kappa" dk.2 (inSet "delta" dk.1 (givenParams cfg)) }

end GeNSIT
