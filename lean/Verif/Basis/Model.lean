import Verif.Table.Model

/-!
# Markov bases

Model of `/repo/gensit/contingency_table/MarkovBasis.py` (generation of one-margin and both-margin preserving
moves for two-way tables).  Progress bars, logging, import/export and `joblib` parallelism are not modelled here.
-/

namespace GeNSIT

/-- A Markov basis move: a Python dict from cells to `+1`/`-1`, in insertion order
(`MarkovBasis.py:216-226`, `:267-272`). -/
abbrev Move (m n : Nat) := List (Cell m n × Int)

/-- `self.ct.cells` after `propagate_cell_constraints`: the cells that are not fixed, in lexicographic order
(`contingency_table/__init__.py:115`, `:566`). -/
def freeCells {m n : Nat} (fixed : List (Cell m n)) : List (Cell m n) := removeCells (allCells m n) fixed

/-- `len(a.symmetric_difference(b)) == 0` (`MarkovBasis.py:105-109`). -/
def sameSet (a b : List Ax) : Bool := a.all (fun x => b.contains x) && b.all (fun x => a.contains x)

/-- `active_candidates(cell, all_cells)` (`MarkovBasis.py:92-112`); `none` = the raised exception. -/
def activeCandidates {m n : Nat} (constrained : List Ax) (cell : Cell m n) (later : List (Cell m n)) :
    Option (List (Cell m n)) :=
  if sameSet constrained [[1], [0, 1]] then
    some (later.filter fun c => decide (c.2 > cell.2) && decide (c.1 = cell.1))
  else if sameSet constrained [[0], [0, 1]] then
    some (later.filter fun c => decide (c.1 > cell.1) && decide (c.2 = cell.2))
  else if sameSet constrained [[0], [1], [0, 1]] then
    some (later.filter fun c => decide (c.1 ≠ cell.1) && decide (c.2 > cell.2))
  else none

/-- `[]` for the last cell, otherwise `active_candidates(tup1, sorted_cells[(index+1):])`
(`MarkovBasis.py:190-192`, `:234-236`). -/
def candidatesFor {m n : Nat} (constrained : List Ax) (tup1 : Cell m n) (rest : List (Cell m n)) :
    Option (List (Cell m n)) :=
  if 0 < rest.length then activeCandidates constrained tup1 rest else some []

/-- First loop of `generate_one_margin_preserving_markov_basis` (`MarkovBasis.py:173-199`): the pairs
`(tup1, tup2)`; `free` is `sorted_cells`, the recursion runs over its suffixes. -/
def oneMarginPairs {m n : Nat} (constrained : List Ax) (free : List (Cell m n)) :
    List (Cell m n) → Option (List (Cell m n × Cell m n))
  | [] => some []
  | tup1 :: rest => do
      let cands ← candidatesFor constrained tup1 rest
      let here := (cands.filter fun tup2 => free.contains tup1 && free.contains tup2).map fun tup2 => (tup1, tup2)
      let others ← oneMarginPairs constrained free rest
      return here ++ others

/-- `my_f_i_dict`: value `int(x == cells[0]) - int(x == cells[1])` at both cells (`MarkovBasis.py:216-226`). -/
def pairMove {m n : Nat} (p : Cell m n × Cell m n) : Move m n :=
  let f := fun x : Cell m n => (if x = p.1 then (1 : Int) else 0) - (if x = p.2 then 1 else 0)
  [(p.1, f p.1), (p.2, f p.2)]

/-- `generate_one_margin_preserving_markov_basis` (`MarkovBasis.py:173-229`). -/
def oneMarginBasis {m n : Nat} (constrained : List Ax) (fixed : List (Cell m n)) : Option (List (Move m n)) := do
  let pairs ← oneMarginPairs constrained (freeCells fixed) (freeCells fixed)
  return pairs.map pairMove

/-- The 2×2 move with `+1` at `a` and `b` and `-1` at the two other corners (`MarkovBasis.py:260-272`). -/
def cornerMove {m n : Nat} (a b : Cell m n) : Move m n :=
  [(a, 1), (b, 1), ((a.1, b.2), -1), ((b.1, a.2), -1)]

/-- `construct_both_margin_preserving_markov_basis_for_cell` (`MarkovBasis.py:231-276`).  `pick` is the index
returned by `np.random.choice(range(len(candidates)))`; an index outside the list cannot be drawn and yields no
move here. -/
def bothMarginFor {m n : Nat} (constrained : List Ax) (free : List (Cell m n)) (pick : Cell m n → Nat)
    (tup1 : Cell m n) (rest : List (Cell m n)) : Option (List (Move m n)) := do
  let cands ← candidatesFor constrained tup1 rest
  match cands[pick tup1]? with
  | none => return []
  | some tup2 =>
    if free.contains tup1 && free.contains tup2 && free.contains (tup1.1, tup2.2) &&
        free.contains (tup2.1, tup1.2) then
      return [cornerMove tup1 tup2]
    else return []

/-- `build_basis_dictionaries_in_sequence` (`MarkovBasis.py:278-299`). -/
def bothMarginLoop {m n : Nat} (constrained : List Ax) (free : List (Cell m n)) (pick : Cell m n → Nat) :
    List (Cell m n) → Option (List (Move m n))
  | [] => some []
  | tup1 :: rest => do
      let here ← bothMarginFor constrained free pick tup1 rest
      let others ← bothMarginLoop constrained free pick rest
      return here ++ others

/-- `generate_both_margin_preserving_markov_basis` (`MarkovBasis.py:499-512`). -/
def bothMarginBasis {m n : Nat} (constrained : List Ax) (fixed : List (Cell m n)) (pick : Cell m n → Nat) :
    Option (List (Move m n)) :=
  bothMarginLoop constrained (freeCells fixed) pick (freeCells fixed)

/-- `MarkovBasis2DTable.generate` (`MarkovBasis.py:656-664`); `none` = `ValueError`. -/
def generateBasis {m n : Nat} (constrained : List Ax) (fixed : List (Cell m n)) (pick : Cell m n → Nat) :
    Option (List (Move m n)) :=
  if constrained.length = 2 then oneMarginBasis constrained fixed
  else if constrained.length = 3 then bothMarginBasis constrained fixed pick
  else none

/-- Value of a move at a cell (dict lookup, `0` when the cell is absent). -/
def moveAt {m n : Nat} : Move m n → Cell m n → Int
  | [], _ => 0
  | (k, v) :: rest, c => if c = k then v else moveAt rest c

/-- Adding `eps` times a move to a table, as the degree-one proposal does: copy the table, then for every key of
the dict write `table_prev[k] + eps * move[k]` (`ContingencyTable_MCMC.py:599-608`). -/
def applyMove {m n : Nat} (t : Table m n) (mv : Move m n) (eps : Int) : Table m n :=
  mv.foldl (fun acc kv => fun i j => if (i, j) = kv.1 then t kv.1.1 kv.1.2 + eps * kv.2 else acc i j) t

/-- The closed formula of `true_markov_basis_length` (`MarkovBasis.py:647-654`), rows constrained (`[[1],[0,1]]`);
Python computes `int(x / 2)`, the product is always even.  (In recent numpy the guarding
`np.asarray([[1],[0,1]], dtype='int32')` itself raises because the list is ragged; only the formula is modelled.) -/
def trueLengthRows (m n : Nat) : Nat := n * (n - 1) * m / 2

/-- Same, columns constrained (`MarkovBasis.py:651-652`). -/
def trueLengthCols (m n : Nat) : Nat := m * (m - 1) * n / 2

end GeNSIT
