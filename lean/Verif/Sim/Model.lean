import Mathlib.Analysis.SpecialFunctions.Log.Basic
import Mathlib.Algebra.Order.Monoid.WithTop
import Mathlib.Analysis.SpecialFunctions.Trigonometric.Basic

/-!
# Model of the spatial interaction models

Arithmetic is over exact reals (the code uses float32).  `torch.log 0 = -inf` is kept: logarithms
are `WithBot ℝ`.  A tensor is a function of its indices; `reshape` and `repeat` are modelled by
the row-major position they read.
-/

namespace GeNSIT

/-- `torch.log` on a non-negative number (`-inf` at zero). -/
noncomputable def tlog (v : ℝ) : WithBot ℝ := if v = 0 then ⊥ else ((Real.log v : ℝ) : WithBot ℝ)

/-- `torch.exp`, with `exp(-inf) = 0`. -/
noncomputable def texp : WithBot ℝ → ℝ
  | none => 0
  | some v => Real.exp v

/-- `torch.logsumexp` of `f 0, …, f (n-1)` for finite entries and `n > 0`. -/
noncomputable def lse (n : ℕ) (f : ℕ → ℝ) : ℝ := Real.log (∑ k ∈ Finset.range n, Real.exp (f k))

/-- `torch.logsumexp(…, dim = (-2,-1))` of an `m × n` block. -/
noncomputable def lse2 (m n : ℕ) (f : ℕ → ℕ → ℝ) : ℝ :=
  Real.log (∑ h ∈ Finset.range m, ∑ k ∈ Finset.range n, Real.exp (f h k))

/-- The arguments of `log_flow_matrix` after conversion to tensors: `iters` iterations, `sweep`
sweeps, `I` origins, `J` destinations.  The attraction and the parameters are the row-major data
handed to `torch.reshape`.
(gensit/intensity_models/spatial_interaction_models/ProductionConstrained/__init__.py:79-156,
 TotallyConstrained/__init__.py:76-150) -/
structure SimArgs where
  I : ℕ
  J : ℕ
  sweep : ℕ
  logAttraction : ℕ → ℝ
  alpha : ℕ → ℝ
  beta : ℕ → ℝ
  demand : ℕ → ℝ
  cost : ℕ → ℕ → ℝ
  grandTotal : ℝ

namespace SimArgs

variable (a : SimArgs)

/-- `torch.reshape(log_destination_attraction,(*iter_sizes,sweep,1,destination))` at
`[t, s, 0, j]` (ProductionConstrained/__init__.py:149, TotallyConstrained/__init__.py:145). -/
def xAt (t s j : ℕ) : ℝ := a.logAttraction ((t * a.sweep + s) * a.J + j)

/-- `torch.reshape(alpha,(*iter_sizes,sweep,1,1))` (ProductionConstrained/__init__.py:154). -/
def alphaAt (t s : ℕ) : ℝ := a.alpha (t * a.sweep + s)

/-- `torch.reshape(beta,(*iter_sizes,sweep,1,1))` (ProductionConstrained/__init__.py:155). -/
def betaAt (t s : ℕ) : ℝ := a.beta (t * a.sweep + s)

/-- `origin_demand.repeat((1,sweep))` then `reshape((1,sweep,origin,1))`: the vector is tiled, and
position `s*I+i` is read (ProductionConstrained/__init__.py:150-151). -/
def demandAt (s i : ℕ) : ℝ := a.demand ((s * a.I + i) % a.I)

/-- Production-constrained: `cost_matrix.repeat((1,sweep))` makes an `I × (sweep*J)` matrix, which
is then reshaped to `(1,sweep,origin,destination)` (ProductionConstrained/__init__.py:152-153). -/
def costTiled (s i j : ℕ) : ℝ :=
  let k := (s * a.I + i) * a.J + j
  a.cost (k / (a.sweep * a.J)) (k % (a.sweep * a.J) % a.J)

/-- Totally-constrained: `cost_matrix.repeat((1,sweep,1,1))`
(TotallyConstrained/__init__.py:146). -/
def costRepeated (_s i j : ℕ) : ℝ := a.cost i j

/-- `log_utility = log_destination_attraction*alpha - cost_matrix*beta`, production-constrained
(ProductionConstrained/__init__.py:160). -/
noncomputable def utilityP (t s i j : ℕ) : ℝ :=
  a.xAt t s j * a.alphaAt t s - a.costTiled s i j * a.betaAt t s

/-- `log_utility`, totally-constrained (TotallyConstrained/__init__.py:156). -/
noncomputable def utilityT (t s i j : ℕ) : ℝ :=
  a.xAt t s j * a.alphaAt t s - a.costRepeated s i j * a.betaAt t s

/-- `log_flow` of the production-constrained model
(ProductionConstrained/__init__.py:162-166). -/
noncomputable def logFlowP (t s i j : ℕ) : WithBot ℝ :=
  tlog (a.demandAt s i) +
    ((a.utilityP t s i j - lse a.J (a.utilityP t s i) : ℝ) : WithBot ℝ) + tlog a.grandTotal

/-- `log_flow` of the totally-constrained model (TotallyConstrained/__init__.py:158-162). -/
noncomputable def logFlowT (t s i j : ℕ) : WithBot ℝ :=
  ((a.utilityT t s i j - lse2 a.I a.J (a.utilityT t s) : ℝ) : WithBot ℝ) + tlog a.grandTotal

/-- Intensity (`torch.exp` of the log flow), production-constrained
(ProductionConstrained/__init__.py:179-189). -/
noncomputable def flowP (t s i j : ℕ) : ℝ := texp (a.logFlowP t s i j)

/-- Intensity, totally-constrained (TotallyConstrained/__init__.py:175-184). -/
noncomputable def flowT (t s i j : ℕ) : ℝ := texp (a.logFlowT t s i j)

end SimArgs

/-- `intensity_demand`: `torch.squeeze` drops every dimension of size one, then
`logsumexp(dim = 0)` and `exp`.  The argument is the intensity of one iteration and sweep (finite
logarithms); the result is the flat list of returned numbers.
(gensit/intensity_models/spatial_interaction_models/__init__.py:250-263) -/
noncomputable def intensityDemand (I J : ℕ) (flow : ℕ → ℕ → ℝ) : List ℝ :=
  if I = 1 then
    -- squeezed to one dimension (or none): the logsumexp runs over the destinations
    [∑ j ∈ Finset.range J, flow 0 j]
  else if J = 1 then
    [∑ i ∈ Finset.range I, flow i 0]
  else
    (List.range J).map fun j => ∑ i ∈ Finset.range I, flow i j

/-- Parameters of the Harris–Wilson potential. -/
structure PotParams where
  alpha : ℝ
  beta : ℝ
  delta : ℝ
  kappa : ℝ
  sigma : ℝ
  epsilon : ℝ

/-- `sde_pot`, totally-constrained, for `alpha ≠ 0` (with `alpha = 0` the code returns `-inf`,
not modelled).  (TotallyConstrained/__init__.py:32-56) -/
noncomputable def sdePotT (p : PotParams) (I J : ℕ) (cost : ℕ → ℕ → ℝ) (x : ℕ → ℝ) : ℝ :=
  (-(1 / p.alpha) * lse2 I J (fun i j => p.alpha * x j - p.beta * cost i j) +
      (p.kappa * (∑ j ∈ Finset.range J, Real.exp (x j)) -
        p.delta * ∑ j ∈ Finset.range J, x j)) * (2 * p.epsilon / p.sigma ^ 2)

/-- `sde_pot`, production-constrained, for `alpha ≠ 0`.  `torch.logsumexp(log_utility, dim = 0)`
sums over the *origins* and leaves a vector indexed by destinations; `torch.dot` of it with the
origin demand raises unless the two lengths agree (`none`).
(ProductionConstrained/__init__.py:33-59) -/
noncomputable def sdePotP (p : PotParams) (I J : ℕ) (demand : ℕ → ℝ) (cost : ℕ → ℕ → ℝ)
    (x : ℕ → ℝ) : Option ℝ :=
  if I = J then
    some ((-(1 / p.alpha) * (∑ j ∈ Finset.range J,
        demand j * lse I (fun i => p.alpha * x j - p.beta * cost i j)) +
      (p.kappa * (∑ j ∈ Finset.range J, Real.exp (x j)) -
        p.delta * ∑ j ∈ Finset.range J, x j)) * (2 * p.epsilon / p.sigma ^ 2))
  else none

/-- The potential of the AIS prior, value part of `sde_ais_potential_and_jacobian`
(gensit/physics_models/HarrisWilsonModel.py:310-321). -/
noncomputable def aisPot (p : PotParams) (J : ℕ) (x : ℕ → ℝ) : ℝ :=
  -(2 / p.sigma ^ 2) * (p.delta + 1 / (J : ℝ)) * (∑ j ∈ Finset.range J, x j) +
    ∑ j ∈ Finset.range J, 2 / p.sigma ^ 2 * p.kappa * Real.exp (x j)

/-- The hand-written gradient of the AIS prior
(gensit/physics_models/HarrisWilsonModel.py:322-325). -/
noncomputable def aisGrad (p : PotParams) (J : ℕ) (x : ℕ → ℝ) (j : ℕ) : ℝ :=
  -(2 / p.sigma ^ 2) * (p.delta + 1 / (J : ℝ)) * 1 + 2 / p.sigma ^ 2 * p.kappa * Real.exp (x j)

/-- `negative_destination_attraction_log_likelihood_and_gradient`, value part
(gensit/physics_models/HarrisWilsonModel.py:226-244). -/
noncomputable def dataNll (noiseVar : ℝ) (J : ℕ) (pred obs : ℕ → ℝ) : ℝ :=
  0.5 * (1 / noiseVar) * ∑ j ∈ Finset.range J, (pred j - obs j) * (pred j - obs j)

/-- The same, gradient part (HarrisWilsonModel.py:243). -/
noncomputable def dataNllGrad (noiseVar : ℝ) (pred obs : ℕ → ℝ) (j : ℕ) : ℝ :=
  1 / noiseVar * (pred j - obs j)

/-- `run_single`: one Euler step of the SDE from attractions `w`, given the normalised intensity
and the normal draws.  `logsumexp(dim = 0)` sums the intensity over origins
(gensit/physics_models/HarrisWilsonModel.py:329-406). -/
noncomputable def runSingle (p : PotParams) (dt : ℝ) (I : ℕ) (flow : ℕ → ℕ → ℝ)
    (noise : ℕ → ℝ) (w : ℕ → ℝ) (j : ℕ) : ℝ :=
  w j + w j *
    (p.epsilon * ((∑ i ∈ Finset.range I, flow i j) - p.kappa * w j + p.delta) +
      p.sigma * 1 / Real.sqrt (2 * Real.pi * dt) * noise j) * dt

end GeNSIT
