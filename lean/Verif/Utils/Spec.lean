import Verif.Utils.Model
import Mathlib.Data.List.Basic

/-!
# Specification vocabulary for the utilities
-/

namespace GeNSIT.Spec

/-- `x` lies in the closed interval with possibly missing ends. -/
def InClosed {α : Type} [LinearOrder α] (lo hi : Option α) (x : α) : Prop :=
  (∀ l, lo = some l → l ≤ x) ∧ (∀ h, hi = some h → x ≤ h)

/-- `x` lies in the open interval with possibly missing ends. -/
def InOpen {α : Type} [LinearOrder α] (lo hi : Option α) (x : α) : Prop :=
  (∀ l, lo = some l → l < x) ∧ (∀ h, hi = some h → x < h)

/-- `xs` lists, in increasing order, exactly the values `x` with `P x`. -/
def ListsIncreasing (xs : List Int) (P : Int → Prop) : Prop := xs.Pairwise (· < ·) ∧ ∀ x, x ∈ xs ↔ P x

/-- `xs` lists, in decreasing order, exactly the values `x` with `P x`. -/
def ListsDecreasing (xs : List Int) (P : Int → Prop) : Prop := xs.Pairwise (· > ·) ∧ ∀ x, x ∈ xs ↔ P x

/-- A rectangular array with `m` rows and `n` columns. -/
def Rect (rows : List (List Int)) (m n : Nat) : Prop := rows.length = m ∧ ∀ r ∈ rows, r.length = n

/-- A value that fits a signed 32-bit integer. -/
def Fits32 (z : Int) : Prop := -2 ^ 31 ≤ z ∧ z < 2 ^ 31

end GeNSIT.Spec
