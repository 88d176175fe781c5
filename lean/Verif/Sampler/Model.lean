import Mathlib.Algebra.Order.Field.Basic
import Mathlib.Algebra.BigOperators.Group.Finset.Basic
import Mathlib.Data.Fin.VecNotation

/-!
# Model of the MCMC updates of theta and of the log attractions

Numbers are an arbitrary linearly ordered field `K` (the code uses float32).  Potentials, their
gradients and likelihoods are arbitrary functions; every random draw is an argument.
File: gensit/learning_models/HarrisWilsonModel_MCMC.py unless said otherwise.
-/

namespace GeNSIT

variable {K ι T : Type} [Field K] [LinearOrder K] [IsStrictOrderedRing K] [Fintype ι]

/-- `torch.dot`. -/
def dot (p q : ι → K) : K := ∑ k, p k * q k

/-- The physics seen by the sampler: potential, its gradient, negative log likelihood of a table and
the autograd Jacobian of that likelihood, all functions of the *scaled* theta; the observed log
attractions and the noise variance. -/
structure Phys (K ι T : Type) where
  bmax : K
  pot : (Fin 2 → K) → (ι → K) → K
  grad : (Fin 2 → K) → (ι → K) → (ι → K)
  nlt : (Fin 2 → K) → (ι → K) → T → K
  nltJac : (Fin 2 → K) → (ι → K) → T → (ι → K)
  obs : ι → K
  noiseVar : K

/-- `theta_new_scaled[1] *= bmax` (lines 656-657, 741-742). -/
def scaleTheta (b : K) (th : Fin 2 → K) : Fin 2 → K := fun i => if i = 1 then th 1 * b else th i

/-- Reflection at the boundaries of `[0,2]` (lines 641-647, 729-735). -/
def reflect (v : K) : K := if v < 0 then -v else if 2 < v then 2 - (v - 2) else v

/-- The reflected random-walk proposal (lines 635-647, 725-735). -/
def thetaProposal (th walk : Fin 2 → K) : Fin 2 → K := fun i => reflect (th i + walk i)

/-- `theta_new.min() < 0 or theta_new.max() >= 2` (lines 650, 738). -/
def outsideBox (th : Fin 2 → K) : Prop := min (th 0) (th 1) < 0 ∨ max (th 0) (th 1) ≥ 2

instance (th : Fin 2 → K) : Decidable (outsideBox th) := by unfold outsideBox; infer_instance

/-- The auxiliary values carried between steps. -/
structure Aux (K ι : Type) where
  V : K
  gradV : ι → K
  logZ : K
  sign : K

/-- `theta_gibbs_step` (lines 605-690): `z` is what `z_inverse` returns for the scaled proposal,
`logU` the logarithm of the uniform draw.  Returns theta, the acceptance flag and the auxiliary
values. -/
def thetaStep (ph : Phys K ι T) (walk : Fin 2 → K) (z : (Fin 2 → K) → K × K) (logU : K)
    (x : ι → K) (s : (Fin 2 → K) × Aux K ι) : ((Fin 2 → K) × Aux K ι) × ℕ :=
  let new := thetaProposal s.1 walk
  if outsideBox new then (s, 0)
  else
    let sc := scaleTheta ph.bmax new
    let zn := z sc
    let Vn := ph.pot sc x
    if logU < (zn.1 - Vn) - (s.2.logZ - s.2.V) then
      ((new, { V := Vn, gradV := ph.grad sc x, logZ := zn.1, sign := zn.2 }), 1)
    else (s, 0)

/-- `theta_given_table_gibbs_step` (lines 693-829); the extra value is the cached negative table log
likelihood.  The non-finite exception is not modelled (exact arithmetic). -/
def thetaStepT (ph : Phys K ι T) (walk : Fin 2 → K) (z : (Fin 2 → K) → K × K) (logU : K)
    (x : ι → K) (tab : T) (s : (Fin 2 → K) × Aux K ι × K) :
    ((Fin 2 → K) × Aux K ι × K) × ℕ :=
  let new := thetaProposal s.1 walk
  if outsideBox new then (s, 0)
  else
    let sc := scaleTheta ph.bmax new
    let zn := z sc
    let Vn := ph.pot sc x
    let Ln := ph.nlt sc x tab
    if logU < (zn.1 - Vn - Ln) - (s.2.1.logZ - s.2.1.V - s.2.2) then
      ((new, { V := Vn, gradV := ph.grad sc x, logZ := zn.1, sign := zn.2 }, Ln), 1)
    else (s, 0)

/-- One leapfrog step with the carried gradient (lines 395-406). -/
def leapStep (eps : K) (g : (ι → K) → (ι → K)) (s : (ι → K) × (ι → K) × (ι → K)) :
    (ι → K) × (ι → K) × (ι → K) :=
  let p1 := s.2.1 - (1 / 2 * eps) • s.2.2
  let x1 := s.1 + eps • p1
  let g1 := g x1
  (x1, p1 - (1 / 2 * eps) • g1, g1)

/-- The leapfrog loop (lines 394-406), started with the gradient at the starting point. -/
def leapfrog (eps : K) (g : (ι → K) → (ι → K)) (n : ℕ) (s : (ι → K) × (ι → K)) :
    (ι → K) × (ι → K) :=
  let r := (leapStep eps g)^[n] (s.1, s.2, g s.1)
  (r.1, r.2.1)

/-- Negative log likelihood of the observed attractions
(gensit/physics_models/HarrisWilsonModel.py:226-244). -/
def obsNll (ph : Phys K ι T) (x : ι → K) : K :=
  1 / 2 * (1 / ph.noiseVar) * dot (x - ph.obs) (x - ph.obs)

/-- Its gradient (HarrisWilsonModel.py:241). -/
def obsGrad (ph : Phys K ι T) (x : ι → K) : ι → K := (1 / ph.noiseVar) • (x - ph.obs)

/-- `negative_table_log_likelihood_gradient`: minus the Jacobian of the *negative* log likelihood
(lines 252-266). -/
def nltGrad (ph : Phys K ι T) (sc : Fin 2 → K) (x : ι → K) (tab : T) : ι → K :=
  -ph.nltJac sc x tab

/-- State of the loop of the attraction update: position, momentum, `gradW_new`, and the new
potential values, undefined before the first step. -/
structure XLoop (K ι : Type) where
  x : ι → K
  p : ι → K
  gradW : ι → K
  new : Option (K × (ι → K))

/-- One pass of the loop of `log_destination_attraction_gibbs_step` (lines 897-925): the data
likelihood and its gradient are evaluated at the *previous* sample. -/
def xLoopStep (ph : Phys K ι T) (sc : Fin 2 → K) (eps : K) (prev : ι → K) (s : XLoop K ι) :
    XLoop K ι :=
  let p1 := s.p - (1 / 2 * eps) • s.gradW
  let x1 := s.x + eps • p1
  let gw := ph.grad sc x1 + obsGrad ph prev
  { x := x1, p := p1 - (1 / 2 * eps) • gw, gradW := gw
    new := some (ph.pot sc x1, ph.grad sc x1) }

/-- The loop from the start of the update (lines 868-925). -/
def xLoop (ph : Phys K ι T) (sc : Fin 2 → K) (eps : K) (n : ℕ) (prev mom gradV : ι → K) :
    XLoop K ι :=
  (xLoopStep ph sc eps prev)^[n]
    { x := prev, p := mom, gradW := gradV + obsGrad ph prev, new := none }

/-- `log_destination_attraction_gibbs_step` (lines 832-963).  `none`: the code raises, because the
new potential was never computed (no leapfrog step) and the proposal is accepted. -/
def xStep (ph : Phys K ι T) (eps : K) (n : ℕ) (mom : ι → K) (logU : K) (th : Fin 2 → K)
    (s : (ι → K) × K × (ι → K)) : Option (((ι → K) × K × (ι → K)) × ℕ) :=
  let sc := scaleTheta ph.bmax th
  let r := xLoop ph sc eps n s.1 mom s.2.2
  let W := s.2.1 + obsNll ph s.1
  let H := 1 / 2 * dot mom mom + W
  -- `W_new` starts as `W` and is recomputed with the data likelihood of the previous sample
  let Wn := match r.new with
    | none => W
    | some v => v.1 + obsNll ph s.1
  let Hn := 1 / 2 * dot r.p r.p + Wn
  if logU < H - Hn then
    match r.new with
    | none => none
    | some v => some ((r.x, v.1, v.2), 1)
  else some (s, 0)

/-- One pass of the loop of `log_destination_attraction_given_table_gibbs_step` (lines
1067-1112). -/
def xLoopStepT (ph : Phys K ι T) (sc : Fin 2 → K) (eps : K) (tab : T) (prev : ι → K)
    (s : XLoop K ι) : XLoop K ι :=
  let p1 := s.p - (1 / 2 * eps) • s.gradW
  let x1 := s.x + eps • p1
  let gw := ph.grad sc x1 + obsGrad ph prev + nltGrad ph sc prev tab
  { x := x1, p := p1 - (1 / 2 * eps) • gw, gradW := gw
    new := some (ph.pot sc x1, ph.grad sc x1) }

/-- `log_destination_attraction_given_table_gibbs_step` (lines 966-1182); the last value is the
cached negative table log likelihood, which on acceptance becomes the likelihood at the *previous*
sample (lines 1094-1099, 1171-1176). -/
def xStepT (ph : Phys K ι T) (eps : K) (n : ℕ) (mom : ι → K) (logU : K) (th : Fin 2 → K) (tab : T)
    (s : (ι → K) × K × (ι → K) × K) : Option (((ι → K) × K × (ι → K) × K) × ℕ) :=
  let sc := scaleTheta ph.bmax th
  let r := (xLoopStepT ph sc eps tab s.1)^[n]
    { x := s.1, p := mom
      gradW := s.2.2.1 + obsGrad ph s.1 + nltGrad ph sc s.1 tab, new := none }
  let W := s.2.1 + obsNll ph s.1 + s.2.2.2
  let H := 1 / 2 * dot mom mom + W
  let Wn := match r.new with
    | none => W
    | some v => v.1 + obsNll ph s.1 + ph.nlt sc s.1 tab
  let Hn := 1 / 2 * dot r.p r.p + Wn
  if logU < H - Hn then
    match r.new with
    | none => none
    | some v => some ((r.x, v.1, v.2, ph.nlt sc s.1 tab), 1)
  else some (s, 0)

/-- The state of `SIM_MCMC.run` (gensit/experiments.py:1395-1490). -/
structure SimState (K ι : Type) where
  theta : Fin 2 → K
  x : ι → K
  aux : Aux K ι

/-- State before the loop: theta and attractions as initialised, potential and gradient evaluated
there (gensit/experiments.py:1398-1420); `z0` is the first estimate of `log 1/z`. -/
def simInit (ph : Phys K ι T) (th : Fin 2 → K) (x : ι → K) (z0 : K × K) : SimState K ι :=
  let sc := scaleTheta ph.bmax th
  { theta := th, x := x
    aux := { V := ph.pot sc x, gradV := ph.grad sc x, logZ := z0.1, sign := z0.2 } }

/-- The draws of one step of the sampler. -/
inductive SimOp (K ι : Type)
  | theta (walk : Fin 2 → K) (z : (Fin 2 → K) → K × K) (logU : K)
  | attraction (eps : K) (n : ℕ) (mom : ι → K) (logU : K)

/-- One step of the loop of `SIM_MCMC.run` (gensit/experiments.py:1438-1490): theta steps and
attraction steps may come in any order and number. -/
def simStep (ph : Phys K ι T) (s : SimState K ι) : SimOp K ι → Option (SimState K ι)
  | .theta walk z logU =>
    let r := (thetaStep ph walk z logU s.x (s.theta, s.aux)).1
    some { s with theta := r.1, aux := r.2 }
  | .attraction eps n mom logU =>
    (xStep ph eps n mom logU s.theta (s.x, s.aux.V, s.aux.gradV)).map fun r =>
      { s with x := r.1.1, aux := { s.aux with V := r.1.2.1, gradV := r.1.2.2 } }

/-- The state of `JointTableSIM_MCMC.run` (gensit/experiments.py:1616-1790). -/
structure JointState (K ι T : Type) where
  theta : Fin 2 → K
  x : ι → K
  table : T
  aux : Aux K ι
  nlt : K

/-- State before the loop (gensit/experiments.py:1629-1655). -/
def jointInit (ph : Phys K ι T) (th : Fin 2 → K) (x : ι → K) (tab : T) (z0 : K × K) :
    JointState K ι T :=
  let sc := scaleTheta ph.bmax th
  { theta := th, x := x, table := tab
    aux := { V := ph.pot sc x, gradV := ph.grad sc x, logZ := z0.1, sign := z0.2 }
    nlt := ph.nlt sc x tab }

/-- The draws of one step of the joint sampler; `tables` is the table returned by the table steps
of the iteration. -/
inductive JointOp (K ι T : Type)
  | theta (walk : Fin 2 → K) (z : (Fin 2 → K) → K × K) (logU : K)
  | attraction (eps : K) (n : ℕ) (mom : ι → K) (logU : K)
  | tables (tab : T)

/-- One step of the joint sampler (gensit/experiments.py:1676-1776).  After the table steps the
likelihood is recomputed with the *unscaled* theta (lines 1771-1776). -/
def jointStep (ph : Phys K ι T) (s : JointState K ι T) : JointOp K ι T → Option (JointState K ι T)
  | .theta walk z logU =>
    let r := (thetaStepT ph walk z logU s.x s.table (s.theta, s.aux, s.nlt)).1
    some { s with theta := r.1, aux := r.2.1, nlt := r.2.2 }
  | .attraction eps n mom logU =>
    (xStepT ph eps n mom logU s.theta s.table (s.x, s.aux.V, s.aux.gradV, s.nlt)).map fun r =>
      { s with x := r.1.1, aux := { s.aux with V := r.1.2.1, gradV := r.1.2.2.1 }
               nlt := r.1.2.2.2 }
  | .tables tab => some { s with table := tab, nlt := ph.nlt s.theta s.x tab }

/-! ### Annealed importance sampling -/

/-- The draws of one temperature: momentum and logarithm of the uniform. -/
structure AisDraw (K ι : Type) where
  mom : ι → K
  logU : K

/-- One particle between two temperatures: weight, position, and the cached potentials and gradients
of the prior (`0`) and of the target (`1`). -/
structure Particle (K ι : Type) where
  logW : K
  x : ι → K
  v0 : K
  v1 : K
  d0 : ι → K
  d1 : ι → K

/-- A particle at its starting position (lines 364-374); `logW` starts as `-log ais_samples`. -/
def aisInit (V0 V1 : (ι → K) → K) (g0 g1 : (ι → K) → (ι → K)) (logW : K) (x : ι → K) :
    Particle K ι :=
  { logW := logW, x := x, v0 := V0 x, v1 := V1 x, d0 := g0 x, d1 := g1 x }

/-- One pass of the annealing loop (lines 377-417) with temperature schedule `temp` and `n + 1`
leapfrog steps (with none the code raises when the proposal is accepted; not modelled). -/
def aisStep (V0 V1 : (ι → K) → K) (g0 g1 : (ι → K) → (ι → K)) (temp : ℕ → K) (eps : K) (n : ℕ)
    (it : ℕ) (s : Particle K ι) (d : AisDraw K ι) : Particle K ι :=
  let w := s.logW + (temp it - temp (it - 1)) * (s.v0 - s.v1)
  let V := (1 - temp it) * s.v0 + temp it * s.v1
  let gradV := (1 - temp it) • s.d0 + temp it • s.d1
  let H := 1 / 2 * dot d.mom d.mom + V
  let r := (leapStep eps (fun x => (1 - temp it) • g0 x + temp it • g1 x))^[n + 1]
    (s.x, d.mom, gradV)
  let Hp := 1 / 2 * dot r.2.1 r.2.1 + ((1 - temp it) * V0 r.1 + temp it * V1 r.1)
  if d.logU < H - Hp then
    { logW := w, x := r.1, v0 := V0 r.1, v1 := V1 r.1, d0 := g0 r.1, d1 := g1 r.1 }
  else { s with logW := w }

/-- The annealing loop `for it in range(1, n_temperatures)` (lines 377-417): `draws` has one entry
per temperature after the first, `it` is the index of the next temperature. -/
def aisLoop (V0 V1 : (ι → K) → K) (g0 g1 : (ι → K) → (ι → K)) (temp : ℕ → K) (eps : K) (n : ℕ) :
    ℕ → Particle K ι → List (AisDraw K ι) → Particle K ι
  | _, s, [] => s
  | it, s, d :: ds =>
    aisLoop V0 V1 g0 g1 temp eps n (it + 1) (aisStep V0 V1 g0 g1 temp eps n it s d) ds

/-- `torch.linspace(0, 1, m)` (line 347). -/
def linspace01 (m : ℕ) (it : ℕ) : K := (it : K) / ((m : K) - 1)

end GeNSIT
