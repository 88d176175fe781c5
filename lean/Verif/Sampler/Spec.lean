import Mathlib.Algebra.Order.Field.Basic
import Mathlib.Algebra.BigOperators.Group.Finset.Basic

/-!
# Vocabulary for the parameter and attraction samplers, independent of the code
-/

namespace GeNSIT.Spec

/-- The parameter box `[0,2)²` of the samplers. -/
def InBox {K : Type} [Field K] [LinearOrder K] (th : Fin 2 → K) : Prop :=
  ∀ i, 0 ≤ th i ∧ th i < 2

/-- Kinetic energy. -/
def kinetic {K ι : Type} [Field K] [Fintype ι] (p : ι → K) : K := (∑ k, p k * p k) / 2

/-- Energy of a position and momentum under a potential. -/
def energy {K ι : Type} [Field K] [Fintype ι] (pot : (ι → K) → K) (x p : ι → K) : K :=
  kinetic p + pot x

/-- A map on positions and momenta is *reversible*: running it from the end point with the momentum
reversed leads back to the start with the momentum reversed. -/
def Reversible {K ι : Type} [Field K] (f : (ι → K) × (ι → K) → (ι → K) × (ι → K)) : Prop :=
  ∀ x p, f ((f (x, p)).1, -(f (x, p)).2) = (x, -p)

end GeNSIT.Spec
