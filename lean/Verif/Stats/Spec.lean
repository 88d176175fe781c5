import Mathlib.Algebra.Order.Field.Basic
import Mathlib.Algebra.BigOperators.Group.Finset.Basic
import Mathlib.Data.Fintype.Basic
import Mathlib.Data.List.Count

/-!
# Specification vocabulary for the statistics (C59, C60, C77–C82)
-/

namespace GeNSIT.Spec

variable {K : Type} [LinearOrder K]

/-- How many of the samples lie in the closed interval. -/
def inside (x : List K) (lo hi : K) : ℕ := x.countP fun v => decide (lo ≤ v ∧ v ≤ hi)

/-- One unit is taken out of one cell and put into another one. -/
def Transfer {ι : Type} (t t' : ι → ℤ) : Prop :=
  ∃ a b, a ≠ b ∧ t' a = t a - 1 ∧ t' b = t b + 1 ∧ ∀ c, c ≠ a → c ≠ b → t' c = t c

/-- A sequence of `k` transfers through tables without negative cells. -/
inductive Transfers {ι : Type} : ℕ → (ι → ℤ) → (ι → ℤ) → Prop
  | refl (t : ι → ℤ) : Transfers 0 t t
  | step {k : ℕ} {t u v : ι → ℤ} (h : Transfer t u) (hn : ∀ c, 0 ≤ u c) (r : Transfers k u v) :
      Transfers (k + 1) t v

end GeNSIT.Spec
