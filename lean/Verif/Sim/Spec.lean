import Mathlib.Analysis.SpecialFunctions.Exp

/-!
# What a spatial interaction model promises

Written without reference to the code: a gravity model with utilities
`alpha * x j - beta * cost i j`.
-/

namespace GeNSIT.Spec

/-- Unnormalised weight of the trip `i → j`. -/
noncomputable def weight (alpha beta : ℝ) (x : ℕ → ℝ) (cost : ℕ → ℕ → ℝ) (i j : ℕ) : ℝ :=
  Real.exp (alpha * x j - beta * cost i j)

/-- Probability that a trip starting at `i` goes to `j` (a softmax over destinations). -/
noncomputable def choice (J : ℕ) (alpha beta : ℝ) (x : ℕ → ℝ) (cost : ℕ → ℕ → ℝ)
    (i j : ℕ) : ℝ :=
  weight alpha beta x cost i j / ∑ k ∈ Finset.range J, weight alpha beta x cost i k

/-- Probability of the trip `i → j` among all pairs. -/
noncomputable def share (I J : ℕ) (alpha beta : ℝ) (x : ℕ → ℝ) (cost : ℕ → ℕ → ℝ)
    (i j : ℕ) : ℝ :=
  weight alpha beta x cost i j /
    ∑ h ∈ Finset.range I, ∑ k ∈ Finset.range J, weight alpha beta x cost h k

end GeNSIT.Spec
