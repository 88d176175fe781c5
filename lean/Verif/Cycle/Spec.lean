import Verif.Cycle.Model
import Mathlib.Data.List.Rotate
import Mathlib.Data.List.Chain

/-!
# Specification vocabulary for cycles of the free-cell graph
-/

namespace GeNSIT.Spec

open GeNSIT

/-- `p` and `q` are the two ends of a listed cell: one is its row, the other its column. -/
def Adjacent {m n : Nat} (cells : List (Cell m n)) (p q : Node m n) : Prop :=
  ∃ i j, (i, j) ∈ cells ∧ ((p = .o i ∧ q = .d j) ∨ (p = .d j ∧ q = .o i))

/-- A simple cycle through at least three nodes: all nodes distinct, neighbours adjacent, the last adjacent to the
first. -/
structure SimpleCycle {m n : Nat} (cells : List (Cell m n)) (c : List (Node m n)) : Prop where
  nodup : c.Nodup
  long : 3 ≤ c.length
  closed : ∀ c0 cs, c = c0 :: cs → List.IsChain (Adjacent cells) (c0 :: cs ++ [c0])

/-- The same cycle up to starting point and direction. -/
def SameCycle {α : Type} (c c' : List α) : Prop := c.IsRotated c' ∨ c.IsRotated c'.reverse

end GeNSIT.Spec
