import Verif.Chain.Model
import Verif.Table.Spec

/-!
# Specification vocabulary for the table sampler
-/

namespace GeNSIT.Spec

open GeNSIT

/-- `v` is a possible upper-left entry of a non-negative 2×2 table with first row sum `r`, first column sum `c` and
total `T` (the support of the hypergeometric distributions). -/
def HyperSupport (r c T v : Int) : Prop := max 0 (r + c - T) ≤ v ∧ v ≤ min r c

/-- The log of `∏ prev! / new! · exp(w)^(new - prev)` for non-negative tables. -/
noncomputable def targetLogRatio {m n : Nat} (new prev : Table m n) (logI : Option (Fin m → Fin n → ℝ)) : ℝ :=
  ∑ i, ∑ j, (Real.log (Nat.factorial (prev i j).toNat) - Real.log (Nat.factorial (new i j).toNat) +
    (match logI with | none => 0 | some w => ((new i j - prev i j : Int) : ℝ) * w i j))

/-- What the code accumulates instead of the factorial ratio: `Σ log k!` over all counts `k ≥ 1` between the old and the
new value (old excluded from above, new excluded from above), with the sign of a decrease. -/
noncomputable def summedLogRatio {m n : Nat} (new prev : Table m n) (logI : Option (Fin m → Fin n → ℝ)) : ℝ :=
  ∑ i, ∑ j, (∑ k ∈ Finset.Ico (max (new i j) 1).toNat (max (prev i j) 1).toNat, Real.log (Nat.factorial k) -
    ∑ k ∈ Finset.Ico (max (prev i j) 1).toNat (max (new i j) 1).toNat, Real.log (Nat.factorial k) +
    (match logI with | none => 0 | some w => ((new i j - prev i j : Int) : ℝ) * w i j))

/-- The random outcomes a step can see: a basis index is in range or the step raises, a hypergeometric draw
succeeded and lies in the support of the drawn 2×2 minor, the direct samplers return counts. -/
def DrawOk {m n : Nat} (s : Sampler m n) (t : Table m n) : Draw m n → Prop
  | .one _ _ _ => True
  | .higher idx val => ∀ mv, s.basis[idx]? = some mv → ∀ i₁ i₂ j₁ j₂, i₁ < i₂ → j₁ < j₂ →
      mv = [((i₁, j₁), 1), ((i₂, j₂), 1), ((i₁, j₂), -1), ((i₂, j₁), -1)] →
      ∃ v, val = some v ∧ HyperSupport (t i₁ j₁ + t i₁ j₂) (t i₁ j₁ + t i₂ j₁)
        (t i₁ j₁ + t i₁ j₂ + t i₂ j₁ + t i₂ j₂) v
  | .direct outs => ∀ t' ∈ outs, Nonneg t'

/-- Tables the sampler can reach from `t₀` in finitely many table steps. -/
inductive Reached {m n : Nat} (s : Sampler m n) (t₀ : Table m n) : Table m n → Prop
  | start : Reached s t₀ t₀
  | step (t t' : Table m n) (d : Draw m n) (acc : Nat) : Reached s t₀ t → DrawOk s t d →
      s.step t d = some (t', acc) → Reached s t₀ t'

end GeNSIT.Spec
