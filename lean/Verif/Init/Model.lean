import Verif.Chain.Model

/-!
# Table initialisation

Model of `table_monte_carlo_sample` and `table_maximum_entropy_solution` of
`/repo/gensit/contingency_table/__init__.py` (two-way tables).  float32 cells holding counts are `Int`.
-/

namespace GeNSIT

/-! ## Monte Carlo -/

/-- Python's `l[a:b]` for `0 ≤ a`, `0 ≤ b`. -/
def pySlice {α : Type} (l : List α) (a b : Nat) : List α := (l.take b).drop a

/-- `torch.sum(margin[:k])`. -/
def prefixSum {k : Nat} (f : Fin k → Int) (r : Nat) : Int := ∑ i, if i.val < r then f i else 0

/-- `table_monte_carlo_sample` (`contingency_table/__init__.py:929-980`).  `row`, `col` are the residual margins over
axes `(1,)` and `(0,)`, `perm` is `torch.randperm(N) + 1`.  A fixed cell is set to its known value, any other cell
`(i, j)` counts the entries of the `i`-th slice of `perm` lying in `[c_0+…+c_{j-1}+1, c_0+…+c_j]`
(the `i == 0` / `j == 0` branches are the instances of the same formula with an empty prefix). -/
def monteCarlo {m n : Nat} (truth : Table m n) (fixed : List (Cell m n)) (row : Fin m → Int) (col : Fin n → Int)
    (perm : List Int) : Table m n := fun i j =>
  if (i, j) ∈ fixed then truth i j
  else
    let subset := pySlice perm (prefixSum row i.val).toNat (prefixSum row (i.val + 1)).toNat
    (subset.countP fun x => decide (prefixSum col j.val + 1 ≤ x) && decide (x ≤ prefixSum col (j.val + 1)) : Nat)

/-! ## Maximum entropy -/

/-- The margin entry a cell contributes to, for one constrained axis
(`minres_given_constraints`, `contingency_table/__init__.py:1136-1142`). -/
def applicableMargin {m n : Nat} (res : Margins) (c : Cell m n) (ax : Ax) : Option Int :=
  if ax = [0, 1] then (res ax).bind fun l => l[0]?
  else if ax = [0] then (res ax).bind fun l => l[c.2.val]?
  else if ax = [1] then (res ax).bind fun l => l[c.1.val]?
  else none

/-- `minres_given_constraints` (`contingency_table/__init__.py:1125-1144`); `none` = KeyError / IndexError. -/
def minres {m n : Nat} (res : Margins) (axes : List Ax) (c : Cell m n) : Option Int :=
  if axes.length ≤ 0 then some 1
  else (axes.mapM (applicableMargin res c)).bind fun l => l.min?

/-- Loop state of `table_maximum_entropy_solution`. -/
structure MaxEnt (m n : Nat) where
  table : Table m n
  residual : Margins
  free : List (Cell m n)
  unchosen : List (Cell m n)

/-- Initial state (`contingency_table/__init__.py:1057-1079`): fixed cells at their known value, everything else zero,
all free cells selectable.  `residual` is the residual margins; only constrained axes are ever consulted. -/
def maxEntInit {m n : Nat} (truth : Table m n) (fixed : List (Cell m n)) (residual : Margins) : MaxEnt m n where
  table := fixedTable truth fixed
  residual := residual
  free := freeCells fixed
  unchosen := freeCells fixed

/-- What happens to the chosen cell (`contingency_table/__init__.py:1088-1109`): dropped when no contribution is
allowed, otherwise incremented and its residual margins decremented.  `none` = exception (among others the
`KeyError` at `:1101` when the total is not among the constrained axes). -/
def maxEntChosen {m n : Nat} (constrained : List Ax) (s : MaxEnt m n) (c : Cell m n) : Option (MaxEnt m n) :=
  match minres s.residual constrained c with
  | none => none
  | some v =>
    if v ≤ 0 then some { s with free := s.free.erase c, unchosen := s.unchosen.erase c }
    else if constrained.contains [0, 1] then
      match updateMarginsFromCells (fun _ _ => 1 : Table m n) [] s.residual constrained [c] with
      | none => none
      | some r => some { table := fun i j => if (i, j) = c then s.table i j + 1 else s.table i j,
                         residual := r, free := s.free, unchosen := s.unchosen.erase c }
    else none

/-- `if len(unchosen_free_cells) <= 0: unchosen_free_cells = deepcopy(free_cells)`
(`contingency_table/__init__.py:1111-1112`). -/
def maxEntReset {m n : Nat} (s : MaxEnt m n) : MaxEnt m n :=
  if s.unchosen.length ≤ 0 then { s with unchosen := s.free } else s

/-- Outcome of the loop. -/
inductive LoopResult (α : Type) where
  | done (a : α)
  | raised
  | running
  deriving DecidableEq

/-- The `while not table_admissible` loop (`contingency_table/__init__.py:1083-1116`).  `idx k` is the `k`-th random
number, reduced modulo the number of candidates as `randint` does (the order of `list(set)` is arbitrary, `idx` is
too).  `stop` is the outcome of `torch.equal(residual_total, zero_tensor)`; the two tensors have different shapes and
dtypes, so with current torch the test never succeeds: the model leaves it open.  `running`: fuel exhausted. -/
def maxEntLoop {m n : Nat} (adm : Table m n → Option Bool) (constrained : List Ax) (stop : Option (List Int) → Bool)
    (idx : Nat → Nat) : Nat → Nat → MaxEnt m n → LoopResult (Table m n)
  | 0, _, _ => .running
  | fuel + 1, k, s =>
    match s.unchosen[idx k % s.unchosen.length]? with
    | none => .raised
    | some c =>
      match maxEntChosen constrained s c with
      | none => .raised
      | some s₁ =>
        let s₂ := maxEntReset s₁
        if stop (s₂.residual [0, 1]) || decide (s₂.free.length ≤ 0) then
          match adm s₂.table with
          | none => .raised
          | some true => .done s₂.table
          | some false => maxEntLoop adm constrained stop idx fuel (k + 1) s₂
        else maxEntLoop adm constrained stop idx fuel (k + 1) s₂

/-- `table_maximum_entropy_solution` (`contingency_table/__init__.py:1048-1123`) without the final logging. -/
def maxEntropy {m n : Nat} (truth : Table m n) (margins residual : Margins) (constrained : List Ax)
    (fixed : List (Cell m n)) (stop : Option (List Int) → Bool) (idx : Nat → Nat) (fuel : Nat) :
    LoopResult (Table m n) :=
  maxEntLoop (tableAdmissible truth margins constrained fixed) constrained stop idx fuel 0
    (maxEntInit truth fixed residual)

end GeNSIT
