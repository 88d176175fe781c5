import Verif.Basis.Model

/-!
# Cycle-based Markov basis

Model of `generate_both_margin_preserving_grobner_markov_basis`, `find_all_cycles`, `_dfs_find_cycles` and
`_add_unique_cycle` of `/repo/gensit/contingency_table/MarkovBasis.py:324-496`.
-/

namespace GeNSIT

/-- Graph nodes: `o i` is the string `f"o{i+1}"`, `d j` is `f"d{j+1}"` (`MarkovBasis.py:332-336`). -/
inductive Node (m n : Nat) where
  | o (i : Fin m)
  | d (j : Fin n)
  deriving DecidableEq

/-- `self.graph[v]` (`MarkovBasis.py:329-334`).  Python iterates over a set in arbitrary order; the model uses the
index order. -/
def neighbours {m n : Nat} (free : List (Cell m n)) : Node m n → List (Node m n)
  | .o i => ((List.finRange n).filter fun j => decide ((i, j) ∈ free)).map Node.d
  | .d j => ((List.finRange m).filter fun i => decide ((i, j) ∈ free)).map Node.o

/-- `self.origins` (`MarkovBasis.py:335`): origins of the free cells. -/
def origins {m n : Nat} (free : List (Cell m n)) : List (Node m n) :=
  ((List.finRange m).filter fun i => free.any fun c => decide (c.1 = i)).map Node.o

/-- `_dfs_find_cycles` (`MarkovBasis.py:388-453`), returning the recorded paths (without the duplicated start).
`fuel` bounds the recursion depth; `maxLength + 1` is enough because the path grows with every call
(`dfs_complete`). -/
def dfs {m n : Nat} (free : List (Cell m n)) (start : Node m n) (maxLength : Nat) :
    Nat → Node m n → List (Node m n) → List (List (Node m n))
  | 0, _, _ => []
  | fuel + 1, current, path =>
    (neighbours free current).flatMap fun (nb : Node m n) =>
      if nb = start ∧ 3 ≤ path.length then
        if path.length ≤ maxLength then [path] else []
      else if nb ∈ path then []
      else if maxLength < path.length + 1 then []
      else dfs free start maxLength fuel nb (path ++ [nb])

/-- `min(nodes)`. -/
def minOf {α : Type} [LinearOrder α] : List α → Option α
  | [] => none
  | a :: l => some (l.foldl min a)

/-- Loop of `_add_unique_cycle` over the positions of the smallest node (`MarkovBasis.py:472-493`). -/
def canonLoop {α : Type} [LinearOrder α] (nodes : List α) (mn : α) : Option (List α) → List Nat → Option (List α)
  | best, [] => best
  | best, i :: is =>
    let forward := nodes.rotate i
    let rev := nodes.reverse.rotate (nodes.reverse.idxOf mn)
    let candidate := if forward ≤ rev then forward else rev
    let best' := match best with
      | none => some candidate
      | some b => if candidate < b then some candidate else some b
    canonLoop nodes mn best' is

/-- `_add_unique_cycle` (`MarkovBasis.py:455-496`): the canonical form of a cycle given by its distinct nodes, `none` for
the empty tuple.  The order on nodes is the string order of the labels; any linear order will do. -/
def canonical {α : Type} [LinearOrder α] (nodes : List α) : Option (List α) :=
  match minOf nodes with
  | none => none
  | some mn =>
    canonLoop nodes mn none ((List.range nodes.length).filter fun i => decide (nodes[i]? = some mn))

/-- `find_all_cycles` (`MarkovBasis.py:361-386`): the set of canonical forms over all origins (set order is
arbitrary; `dedup` models the set). -/
def findAllCycles {m n : Nat} [LinearOrder (Node m n)] (free : List (Cell m n)) (maxLength : Nat) :
    List (List (Node m n)) :=
  (((origins free).flatMap fun o => dfs free o maxLength (maxLength + 1) o [o]).filterMap canonical).dedup

/-- The cell `(origin, destination)` of two consecutive nodes (`MarkovBasis.py:349-350`); `none` = `ValueError` from
`int(...)` on two nodes of the same kind. -/
def edgeCell {m n : Nat} : Node m n → Node m n → Option (Cell m n)
  | .o i, .d j => some (i, j)
  | .d j, .o i => some (i, j)
  | _, _ => none

/-- `mb_move[k] = v`. -/
def dictSet {m n : Nat} : Move m n → Cell m n → Int → Move m n
  | [], k, v => [(k, v)]
  | (k', v') :: rest, k, v => if k = k' then (k', v) :: rest else (k', v') :: dictSet rest k v

/-- Loop over `zip(cycle_complete, cycle_complete[1:])`; `sgn` is `1` at even positions and `-1` at odd ones
(`MarkovBasis.py:348-353`). -/
def cycleMoveFrom {m n : Nat} : Int → Move m n → List (Node m n) → Option (Move m n)
  | sgn, acc, p1 :: p2 :: rest =>
    match edgeCell p1 p2 with
    | none => none
    | some k => cycleMoveFrom (-sgn) (dictSet acc k sgn) (p2 :: rest)
  | _, acc, _ => some acc

/-- The move of one cycle (`MarkovBasis.py:344-355`); `none` = exception. -/
def cycleMove {m n : Nat} : List (Node m n) → Option (Move m n)
  | [] => none
  | c0 :: cs => cycleMoveFrom 1 [] ((c0 :: cs) ++ [c0])

/-- `generate_both_margin_preserving_grobner_markov_basis` (`MarkovBasis.py:324-358`), `max_length = 10`. -/
def cycleBasis {m n : Nat} [LinearOrder (Node m n)] (fixed : List (Cell m n)) : Option (List (Move m n)) :=
  (findAllCycles (freeCells fixed) 10).mapM cycleMove

end GeNSIT
