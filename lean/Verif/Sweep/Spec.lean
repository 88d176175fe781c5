import Verif.Sweep.Model
import Verif.Config.Spec

/-!
# Specification vocabulary for sweeps
-/

namespace GeNSIT.Spec

open GeNSIT

/-- `r` is the `i`-th row of a group of coupled value lists: it takes the `i`-th value of each. -/
def RowAt {V : Type} (lists : List (List V)) (i : Nat) (r : List V) : Prop :=
  lists ≠ [] ∧ lists.map (fun l => l[i]?) = r.map some

/-- The lists of a group all have the length `n`. -/
def SameLength {V : Type} (lists : List (List V)) (n : Nat) : Prop := lists ≠ [] ∧ ∀ l ∈ lists, l.length = n

/-- Two sweep values are equal, or numbers within ten percent of the larger one. -/
def Near (a b : SVal) : Prop := a = b ∨ ∃ x y : ℚ, a = .num x ∧ b = .num y ∧ 10 * |x - y| ≤ max |x| |y|

end GeNSIT.Spec
