import Verif.Table.Model

/-!
# Specification vocabulary for contingency tables

Plain sums and equalities; nothing here refers to the functions of the model.
-/

namespace GeNSIT.Spec

open GeNSIT

/-- Sum of row `i` (what the code calls the margin over axis `(1,)`). -/
def rowSum {m n : Nat} (t : Table m n) (i : Fin m) : Int := ∑ j, t i j

/-- Sum of column `j` (the margin over axis `(0,)`). -/
def colSum {m n : Nat} (t : Table m n) (j : Fin n) : Int := ∑ i, t i j

/-- Grand total (the margin over axis `(0,1)`). -/
def total {m n : Nat} (t : Table m n) : Int := ∑ i, ∑ j, t i j

/-- No negative entry. -/
def Nonneg {m n : Nat} (t : Table m n) : Prop := ∀ i j, 0 ≤ t i j

/-- Two tables agree at every listed cell. -/
def AgreeAt {m n : Nat} (cells : List (Cell m n)) (t t' : Table m n) : Prop :=
  ∀ i j, (i, j) ∈ cells → t i j = t' i j

/-- The stored margins are the vectors `row`, `col` and the number `tot`. -/
structure Stores {m n : Nat} (mg : Margins) (row : Fin m → Int) (col : Fin n → Int) (tot : Int) : Prop where
  rows : mg [1] = some (List.ofFn row)
  cols : mg [0] = some (List.ofFn col)
  grand : mg [0, 1] = some [tot]

/-- Every axis is one of the three axis tuples of a two-way table. -/
def TwoWay (axes : List Ax) : Prop := ∀ a ∈ axes, a = [0] ∨ a = [1] ∨ a = [0, 1]

/-- A table meets every constrained margin and every fixed cell. -/
structure Meets {m n : Nat} (constrained : List Ax) (row : Fin m → Int) (col : Fin n → Int) (tot : Int)
    (fixed : List (Cell m n)) (truth t : Table m n) : Prop where
  rows : [1] ∈ constrained → ∀ i, rowSum t i = row i
  cols : [0] ∈ constrained → ∀ j, colSum t j = col j
  grand : [0, 1] ∈ constrained → total t = tot
  cells : AgreeAt fixed t truth

end GeNSIT.Spec
