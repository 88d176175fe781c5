import Verif.Basis.Model

/-!
# Imported Markov bases

Model of `f_to_array` (`/repo/gensit/utils/misc_utils.py:876-899`), `basis_function_admissible`,
`import_markov_basis` and `update_markov_basis` (`/repo/gensit/contingency_table/MarkovBasis.py:114-124`, `:551-609`).
The file itself (compressed JSON) is not modelled: an imported basis is an arbitrary list of dictionaries.
-/

namespace GeNSIT

/-- An imported basis function: a Python dict from index pairs to integers. -/
abbrev BasisFn := List ((Nat × Nat) × Int)

/-- A two-dimensional integer array. -/
structure Arr where
  /-- number of rows -/
  r : Nat
  /-- number of columns -/
  c : Nat
  /-- entries; only `i < r`, `j < c` are meaningful -/
  entry : Nat → Nat → Int

/-- `arr[rows, cols] = values`: successive writes (`misc_utils.py:885-898`). -/
def writeEntries (f : BasisFn) : Nat → Nat → Int :=
  f.foldl (fun acc kv => fun i j => if (i, j) = kv.1 then kv.2 else acc i j) (fun _ _ => 0)

/-- `max` of a non-empty list of indices. -/
def maxIdx (l : List Nat) : Nat := l.foldl max 0

/-- `f_to_array` (`misc_utils.py:876-899`).  The three branches write the same entries (when all rows are `0` the row
index `0` is used, and likewise for columns), so they are merged.  `none` = exception: `zip(*{})` cannot be unpacked for
an empty dict, and a key outside the given shape is an `IndexError`. -/
def fToArray (f : BasisFn) (shape : Option (Nat × Nat)) : Option Arr :=
  if f.isEmpty then none
  else
    match shape with
    | none => some ⟨maxIdx (f.map fun kv => kv.1.1) + 1, maxIdx (f.map fun kv => kv.1.2) + 1, writeEntries f⟩
    | some (r, c) =>
      if f.all (fun kv => decide (kv.1.1 < r) && decide (kv.1.2 < c)) then some ⟨r, c, writeEntries f⟩ else none

/-- Sum of a row of an array. -/
def Arr.rowSum (a : Arr) (i : Nat) : Int := ((List.range a.c).map fun (j : Nat) => a.entry i j).sum

/-- Sum of a column of an array. -/
def Arr.colSum (a : Arr) (j : Nat) : Int := ((List.range a.r).map fun (i : Nat) => a.entry i j).sum

/-- `tab.sum(dim = ax).flatten()` (`contingency_table/__init__.py:183-187`); `none` = not an axis tuple of a two-way table. -/
def Arr.axisSums (a : Arr) (ax : Ax) : Option (List Int) :=
  if ax = [1] then some ((List.range a.r).map fun (i : Nat) => a.rowSum i)
  else if ax = [0] then some ((List.range a.c).map fun (j : Nat) => a.colSum j)
  else if ax = [0, 1] then some [((List.range a.r).map fun (i : Nat) => a.rowSum i).sum]
  else none

/-- `table_constrained_margins_summary_statistic` (`contingency_table/__init__.py:179-190`); `junk` is the content of the
uninitialised `torch.empty(1)` returned when no axis is constrained. -/
def Arr.constrainedSums (a : Arr) (constrained : List Ax) (junk : Int) : Option (List Int) :=
  if constrained.isEmpty then some [junk] else
    (constrained.mapM a.axisSums).map List.flatten

/-- `torch.any(tab)`. -/
def Arr.anyNonzero (a : Arr) : Bool :=
  (List.range a.r).any fun i => (List.range a.c).any fun j => decide (a.entry i j ≠ 0)

/-- `basis_function_admissible` (`MarkovBasis.py:114-124`); `none` = exception. -/
def basisFunctionAdmissible (m n : Nat) (constrained : List Ax) (fixed : List (Cell m n)) (junk : Int) (f : BasisFn) :
    Option Bool := do
  let tab ← fToArray f none
  let full ← fToArray f (some (m, n))
  let sums ← tab.constrainedSums constrained junk
  return sums.all (fun v => decide (v = 0)) && tab.anyNonzero &&
    fixed.all (fun c => decide (full.entry c.1 c.2 = 0))

/-- `update_markov_basis` (`MarkovBasis.py:599-609`). -/
def updateMarkovBasis (m n : Nat) (constrained : List Ax) (fixed : List (Cell m n)) (junk : Int) :
    List BasisFn → Option (List BasisFn)
  | [] => some []
  | f :: rest => do
    let ok ← basisFunctionAdmissible m n constrained fixed junk f
    let kept ← updateMarkovBasis m n constrained fixed junk rest
    return if ok then f :: kept else kept

/-- The part of `import_markov_basis` after the file has been read (`MarkovBasis.py:544-551`): the basis is filtered only
when there are fixed cells. -/
def adoptImported (m n : Nat) (constrained : List Ax) (fixed : List (Cell m n)) (junk : Int) (fs : List BasisFn) :
    Option (List BasisFn) :=
  if 0 < fixed.length then updateMarkovBasis m n constrained fixed junk fs else some fs

end GeNSIT
