import Mathlib.Algebra.BigOperators.Fin
import Mathlib.Data.Fintype.Prod
import Mathlib.Data.List.Sort

/-!
# Contingency tables: axes, margins, admissibility, cell constraints

Model of `/repo/gensit/contingency_table/__init__.py` for two-way tables (the only case for which the code
defines a Markov basis class, `__init__.py:519-545`).  int32 arithmetic is modelled by `Int`.
-/

namespace GeNSIT

/-- A cell `(row, column)` of an `m × n` table; `self.cells` is a list of such tuples
(`contingency_table/__init__.py:115`). -/
abbrev Cell (m n : Nat) := Fin m × Fin n

/-- A two-way table (`self.data.ground_truth_table`, a 2-d int32 tensor).  Entries are unbounded integers:
int32 wrap-around is not modelled. -/
abbrev Table (m n : Nat) := Fin m → Fin n → Int

/-- A tuple of axes such as `(0,)`, `(1,)`, `(0,1)` over which a margin sums. -/
abbrev Ax := List Nat

/-! ## Axes -/

/-- `itertools.combinations(s, r)` (used by `utils/math_utils.py:23-28`). -/
def combinations {α : Type} : Nat → List α → List (List α)
  | 0, _ => [[]]
  | _ + 1, [] => []
  | r + 1, x :: xs => (combinations r xs).map (x :: ·) ++ combinations (r + 1) xs

/-- `powerset(range(d))`: all non-empty combinations, by length (`utils/math_utils.py:23-28`). -/
def allAxes (d : Nat) : List Ax :=
  (List.range' 1 d).flatMap (fun r => combinations r (List.range d))

/-- `axes_complement(axes, same_length)` (`contingency_table/__init__.py:149-166`).  The Python code returns
`list(set)`, whose order is unspecified; the model keeps the order of `powerset`. -/
def axesComplement (d : Nat) (axes : List Ax) (sameLength : Bool) : List Ax :=
  let diff := (allAxes d).filter (fun a => !axes.contains a)
  if sameLength then diff.filter (fun a => (axes.map List.length).contains a.length) else diff

/-- `tuple_contained(small, large)` (`utils/misc_utils.py:47-48`). -/
def tupleContained (small large : Ax) : Bool := small.all (fun e => large.contains e)

/-- One pass of the outer `for n in range(1, ndims)` loop of `infer_derivative_margin_axes`
(`contingency_table/__init__.py:760-775`).  Python sets are modelled as lists grown with `List.insert`. -/
def inferStage (d : Nat) (axes : List Ax) (n : Nat) : List Ax :=
  let unique := axes.filter (fun a => a.length == n)
  let all := (allAxes d).filter (fun a => decide (n ≤ a.length))
  all.foldl (fun acc ax =>
    unique.foldl (fun acc' cax => if tupleContained cax ax then acc'.insert ax else acc') acc) axes

/-- `infer_derivative_margin_axes` (`contingency_table/__init__.py:758-776`). -/
def inferDerivativeAxes (d : Nat) (axes : List Ax) : List Ax :=
  (List.range' 1 (d - 1)).foldl (inferStage d) axes

/-- `sorted(...)` on a list of tuples: Python's lexicographic tuple order. -/
def sortAxes (axes : List Ax) : List Ax := axes.insertionSort (· ≤ ·)

/-- The axis part of `self.constraints` (`contingency_table/__init__.py:480-495`). -/
structure AxisConstraints where
  all : List Ax
  constrained : List Ax
  unconstrained : List Ax

/-- Storing the axis constraints (`read_constraints`, `contingency_table/__init__.py:479-495`):
`given = none` is the branch in which no axes were provided.  Empty tuples are dropped when the axes are read
(`:449`), and a Python set removes duplicates. -/
def readAxisConstraints (d : Nat) : Option (List Ax) → AxisConstraints
  | some given =>
      let axes := (given.filter (fun a => decide (0 < a.length))).dedup
      let constrained := sortAxes (inferDerivativeAxes d axes)
      { all := sortAxes (allAxes d), constrained := constrained,
        unconstrained := axesComplement d constrained false }
  | none =>
      { all := sortAxes (allAxes d), constrained := [], unconstrained := sortAxes (allAxes d) }

/-- `map_constraints_to_distribution_name` (`contingency_table/__init__.py:33-48`);
`none` stands for the raised `ValueError`. -/
def distributionName (constrained : List Ax) : Option String :=
  let unique := (constrained.filter (fun a => a.length == 1)).dedup
  if constrained.length == 0 then some "poisson"
  else if unique.length == 0 then some "multinomial"
  else if unique.length == 1 then some "product_multinomial"
  else if unique.length == 2 then some "fishers_hypergeometric"
  else none

/-! ## Margins -/

/-- `tab.sum(dim = ax, keepdims = True).flatten()` for a two-way table
(`table_axis_margin_summary_statistic`, `contingency_table/__init__.py:175-176`).  `none` for an axis tuple
torch would reject. -/
def axisMargin {m n : Nat} (t : Table m n) : Ax → Option (List Int)
  | [0] => some (List.ofFn fun j => ∑ i, t i j)
  | [1] => some (List.ofFn fun i => ∑ j, t i j)
  | [0, 1] => some [∑ i, ∑ j, t i j]
  | _ => none

/-- Stored margins: `self.data.margins`, a dict from axis tuples to flat tensors. -/
abbrev Margins := Ax → Option (List Int)

/-- `torch.cat` of a list of margins, `none` if one of them is missing (KeyError). -/
def catMargins (look : Ax → Option (List Int)) : List Ax → Option (List Int)
  | [] => some []
  | a :: as => do
      let x ← look a
      let rest ← catMargins look as
      return x ++ rest

/-- `table_constrained_margins_summary_statistic` (`contingency_table/__init__.py:179-190`), non-empty branch. -/
def constrainedStatistic {m n : Nat} (t : Table m n) (constrained : List Ax) : Option (List Int) :=
  catMargins (axisMargin t) (sortAxes constrained)

/-- `table_margins_admissible` (`contingency_table/__init__.py:211-221`); `none` = a Python exception
(missing margin).  `torch.equal` compares shapes and values, i.e. list equality. -/
def tableMarginsAdmissible {m n : Nat} (margins : Margins) (constrained : List Ax) (t : Table m n) :
    Option Bool :=
  if 0 < constrained.length then do
    let s ← constrainedStatistic t constrained
    let r ← catMargins margins (sortAxes constrained)
    return s == r
  else some true

/-- `table_cells_admissible` (`contingency_table/__init__.py:224-225`). -/
def tableCellsAdmissible {m n : Nat} (truth : Table m n) (fixed : List (Cell m n)) (t : Table m n) : Bool :=
  fixed.all (fun c => truth c.1 c.2 == t c.1 c.2)

/-- `table_admissible` (`contingency_table/__init__.py:228-229`), with Python's short-circuit `and`. -/
def tableAdmissible {m n : Nat} (truth : Table m n) (margins : Margins) (constrained : List Ax)
    (fixed : List (Cell m n)) (t : Table m n) : Option Bool :=
  match tableMarginsAdmissible margins constrained t with
  | none => none
  | some false => some false
  | some true => some (tableCellsAdmissible truth fixed t)

/-- `table_nonnegative` (`contingency_table/__init__.py:238-239`). -/
def tableNonnegative {m n : Nat} (t : Table m n) : Bool := decide (∀ i j, 0 ≤ t i j)

/-- `update_margins_from_table` (`contingency_table/__init__.py:689-699`): for every non-empty axis tuple the
margin is replaced iff all its entries are non-negative. -/
def updateMarginsFromTable {m n : Nat} (t : Table m n) (margins : Margins) : Margins :=
  (allAxes 2).foldl (fun mg ax =>
    match axisMargin t ax with
    | some l => if l.all (fun x => decide (0 ≤ x)) then (fun a => if a = ax then some l else mg a) else mg
    | none => mg) margins

/-! ## Cells and cell constraints -/

/-- `self.cells` at build time: all cells in lexicographic order (`contingency_table/__init__.py:115`). -/
def allCells (m n : Nat) : List (Cell m n) :=
  (List.finRange m).flatMap (fun i => (List.finRange n).map (fun j => (i, j)))

/-- `sorted(list(set(self.cells) - set(constrained)))` (`contingency_table/__init__.py:566`): since `self.cells`
is always lexicographically sorted and duplicate free, this is a filter. -/
def removeCells {m n : Nat} (cells constrained : List (Cell m n)) : List (Cell m n) :=
  cells.filter (fun c => !constrained.contains c)

/-- `constraint_table(with_margins = False)` (`contingency_table/__init__.py:308-318`): start from all `-1` and
copy the known value of every constrained cell. -/
def constraintTable {m n : Nat} (truth : Table m n) (fixed : List (Cell m n)) : Table m n :=
  fixed.foldl (fun tab c => fun i j => if (i, j) = c then truth c.1 c.2 else tab i j) (fun _ _ => -1)

/-- The instance state touched by constraint propagation. -/
structure CT (m n : Nat) where
  truth : Table m n
  margins : Margins
  residual : Margins
  constrained : List Ax
  fixed : List (Cell m n)
  cells : List (Cell m n)

/-- `margins[ax][k] -= v`; `none` = KeyError / IndexError. -/
def subAt (mg : Margins) (ax : Ax) (k : Nat) (v : Int) : Option Margins :=
  match mg ax with
  | none => none
  | some l =>
    match l[k]? with
    | none => none
    | some x => some (fun a => if a = ax then some (l.set k (x - v)) else mg a)

/-- `margins[ax] -= v` on a whole tensor (`contingency_table/__init__.py:585`). -/
def subAll (mg : Margins) (ax : Ax) (v : Int) : Option Margins :=
  match mg ax with
  | none => none
  | some l => some (fun a => if a = ax then some (l.map (fun x => x - v)) else mg a)

/-- Body of the `for ax in axes` loop of `update_margins_from_cells` (`contingency_table/__init__.py:575-585`).
For a two-way table the complement of `(0,)` is `(1,)` and vice versa, so `cell_arr[axc]` is the column index
for axis `(0,)` and the row index for axis `(1,)`. -/
def subCellAxis {m n : Nat} (truth : Table m n) (c : Cell m n) (mg : Margins) (ax : Ax) : Option Margins :=
  if ax.length < 2 then
    match (axesComplement 2 [ax] true).head? with
    | some [0] => subAt mg ax c.1.val (truth c.1 c.2)
    | some [1] => subAt mg ax c.2.val (truth c.1 c.2)
    | _ => none
  else subAll mg ax (truth c.1 c.2)

/-- `update_margins_from_cells` (`contingency_table/__init__.py:568-586`); an empty list of cells is replaced
by all the fixed cells (`:569`). -/
def updateMarginsFromCells {m n : Nat} (truth : Table m n) (fixed : List (Cell m n)) (mg : Margins)
    (axes : List Ax) (cells : List (Cell m n)) : Option Margins :=
  let cs := if cells.length ≤ 0 then fixed else cells
  cs.foldlM (fun mg c => axes.foldlM (subCellAxis truth c) mg) mg

/-- `update_residual_margins_from_cell_constraints` (`contingency_table/__init__.py:557-566`). -/
def CT.updateResidual {m n : Nat} (s : CT m n) (cs : List (Cell m n)) : Option (CT m n) := do
  let r ← updateMarginsFromCells s.truth s.fixed s.residual (sortAxes (allAxes 2)) cs
  return { s with residual := r, cells := removeCells s.cells cs }

/-- `cell_unconstrained.sum(axis = ax)` : number of cells displayed as `-1` on each line of axis `ax`
(`contingency_table/__init__.py:591-595`). -/
def unknownCounts {m n : Nat} (tab : Table m n) (ax : Ax) : List Int :=
  (axisMargin (fun i j => if tab i j = -1 then 1 else 0 : Table m n) ax).getD []

/-- The `while` test of `update_cell_constraints_deterministically` (`contingency_table/__init__.py:595`). -/
def hasSingleUnknown {m n : Nat} (tab : Table m n) (constrained : List Ax) : Bool :=
  constrained.any (fun ax => (unknownCounts tab ax).any (fun k => k == 1))

/-- `update_cell_constraints_deterministically` **as it runs** (`contingency_table/__init__.py:589-640`).
`constraint_table()` returns a numpy array and the loop body calls `cell_unconstrained.sum(dim = ...)`
(`:606`), a keyword numpy rejects with a `TypeError` (or the assertion at `:598` fails first); so as soon as the
`while` test is true the method raises (`none`), and otherwise it changes nothing. -/
def CT.determine {m n : Nat} (s : CT m n) : Option (CT m n) :=
  if hasSingleUnknown (constraintTable s.truth s.fixed) s.constrained then none else some s

/-- `propagate_cell_constraints` (`contingency_table/__init__.py:642-648`). -/
def CT.propagate {m n : Nat} (s : CT m n) : Option (CT m n) :=
  if 0 < s.fixed.length then do
    let s' ← s.determine
    s'.updateResidual s'.fixed
  else some s

end GeNSIT
