import Mathlib.Data.Rat.Defs
import Mathlib.Data.List.Basic
import Mathlib.Algebra.Order.Ring.Rat
import Mathlib.Tactic.Linarith
import Mathlib.Tactic.FieldSimp

/-!
# Model of the grid searches (`gensit/experiments.py:873-1306`): `RSquared_Analysis` and `LogTarget_Analysis`

The optimiser, the simulation and the potential are parameters of the model: functions of the dictionary of parameters they are
called with. Numbers are rationals, a missing value (`NaN`) is `none`.
-/

namespace GeNSIT

/-- `theta_sample[0] = alpha; theta_sample[1] = beta` on the tensor of default values, then `dict(zip(params_to_learn,
theta_sample))` (`experiments.py:489`, `1016-1017`, `1025`, `1252-1258`): the first two learned parameters, whatever their names,
receive the two numbers. `none` is the `IndexError` of a tensor with fewer than two entries. -/
def gridParams (names : List String) (default : String → ℚ) (a b : ℚ) : Option (List (String × ℚ)) :=
  if names.length < 2 then none else some (names.zip (((names.map default).set 0 a).set 1 b))

/-- The two ways of predicting (`experiments.py:1020`, `1046`). -/
inductive GridMethod
  | potential
  | solver
  deriving DecidableEq

/-- The dictionary of parameters the prediction at a grid point is made with (`experiments.py:1016-1026`, `1047-1050`): the
optimiser receives the learned parameters with `beta * bmax`, the solver receives `alpha` and the unscaled `beta`. -/
def gridDict (method : GridMethod) (names : List String) (default : String → ℚ) (bmax a b : ℚ) : Option (List (String × ℚ)) :=
  match gridParams names default a (b * bmax) with
  | none => none
  | some d =>
    match method with
    | .potential => some d
    | .solver => some [("alpha", a), ("beta", b)]

/-- `torch.dot(x - y, x - y)`. -/
def sqDist (x y : List ℚ) : ℚ := ((x.zipWith (fun u v => (u - v) * (u - v)) y)).sum

/-- `np.mean`. -/
def meanQ (x : List ℚ) : ℚ := x.sum / x.length

/-- `1. - ss_res / ss_tot` (`experiments.py:990-995`, `1068-1071`); a total of zero (equal attractions) gives `NaN` or an infinite
value in the code, excluded by the theorems. -/
def r2Score (w pred : List ℚ) : ℚ := 1 - sqDist pred w / sqDist w (List.replicate w.length (meanQ w))

/-- What the loop over the grid carries: the best score above zero so far, its prediction, and the stored grid. -/
structure GridState where
  best : ℚ
  pred : List ℚ
  grid : Nat × Nat → Option ℚ

/-- One grid point (`experiments.py:1013-1083`): a failed optimisation stores `NaN` and goes on; otherwise the score is stored and the
best prediction replaced if the score is larger. Writing outside the dataset is an error (`none`). -/
def gridStep (shape : Nat × Nat) (predict : Nat × Nat → Option (List ℚ)) (w : List ℚ) (s : GridState) (p : Nat × Nat) :
    Option GridState :=
  if p.1 < shape.1 ∧ p.2 < shape.2 then
    match predict p with
    | none => some { s with grid := fun q => if q = p then none else s.grid q }
    | some x =>
      let s' := { s with grid := fun q => if q = p then some (r2Score w x) else s.grid q }
      if s.best < r2Score w x then some { s' with
        best := r2Score w x
        pred := x } else some s'
  else none

/-- The loop over the grid points. -/
def gridLoop (shape : Nat × Nat) (predict : Nat × Nat → Option (List ℚ)) (w : List ℚ) : List (Nat × Nat) → GridState → Option GridState
  | [], s => some s
  | p :: r, s =>
    match gridStep shape predict w s p with
    | none => none
    | some s' => gridLoop shape predict w r s'

/-- The grid points in the order of the nested loops, which is also the order of `ravel` (`experiments.py:1013-1014`). -/
def gridPoints (n m : Nat) : List (Nat × Nat) := (List.range n).flatMap fun i => (List.range m).map fun j => (i, j)

/-- The inner loop of `np.argmax`: a `NaN` ends the search, otherwise the first largest entry. -/
def argmaxFrom : Nat → Nat → ℚ → List (Option ℚ) → Nat
  | _, bi, _, [] => bi
  | i, _, _, none :: _ => i
  | i, bi, b, some x :: r => if b < x then argmaxFrom (i + 1) i x r else argmaxFrom (i + 1) bi b r

/-- `np.argmax` of a flattened array; of an empty one an error. -/
def npArgmax : List (Option ℚ) → Option Nat
  | [] => none
  | none :: _ => some 0
  | some x :: r => some (argmaxFrom 1 0 x r)

/-- The configuration of a grid search. `betaFirst`: whether the configuration declares the range of `beta` before that of `alpha`;
the dataset has the shape of the declaration (`experiments.py:600`). -/
structure GridConfig where
  method : GridMethod
  names : List String
  default : String → ℚ
  bmax : ℚ
  alphas : List ℚ
  betas : List ℚ
  betaFirst : Bool

/-- The shape of the stored grid (`experiments.py:600`). -/
def GridConfig.shape (c : GridConfig) : Nat × Nat :=
  if c.betaFirst then (c.betas.length, c.alphas.length) else (c.alphas.length, c.betas.length)

/-- What the analysis writes into its metadata (`experiments.py:1103-1108`). -/
structure GridReport where
  alpha : ℚ
  beta : ℚ
  scaledBeta : ℚ
  score : Option ℚ
  predicted : List ℚ
  grid : Nat × Nat → Option ℚ

/-- The prediction at a grid point; `solve` is the optimiser or the simulation (`none` is a failed optimisation). -/
def GridConfig.predict (c : GridConfig) (solve : List (String × ℚ) → Option (List ℚ)) (p : Nat × Nat) : Option (List ℚ) :=
  match c.alphas[p.1]?, c.betas[p.2]? with
  | some a, some b =>
    match gridDict c.method c.names c.default c.bmax a b with
    | some d => solve d
    | none => none
  | _, _ => none

/-- `RSquared_Analysis.run` (`experiments.py:925-1108`). `fallback` is the prediction stored before the search (lines 977-983). A
`None` result stands for an exception: fewer than two learned parameters, a write outside the dataset, an empty grid. -/
def rSquared (c : GridConfig) (solve : List (String × ℚ) → Option (List ℚ)) (w fallback : List ℚ) : Option GridReport :=
  if c.names.length < 2 then none
  else
    match gridLoop c.shape (c.predict solve) w (gridPoints c.alphas.length c.betas.length) ⟨0, fallback, fun _ => some 0⟩ with
    | none => none
    | some s =>
      match npArgmax ((gridPoints c.shape.1 c.shape.2).map s.grid) with
      | none => none
      | some k =>
        match c.alphas[k / c.shape.2]?, c.betas[k % c.shape.2]? with
        | some a, some b => some ⟨a, b, b * c.bmax, s.grid (k / c.shape.2, k % c.shape.2), s.pred, s.grid⟩
        | _, _ => none

/-! ## `LogTarget_Analysis` -/

/-- What `LogTarget_Analysis` writes into its metadata (`experiments.py:1287-1291`). -/
structure TargetReport where
  alpha : ℚ
  beta : ℚ
  scaledBeta : ℚ
  target : ℚ
  deriving DecidableEq

/-- The loop (`experiments.py:1249-1278`): `target` is the log target of a dictionary of parameters, `none` if it is `NaN` or minus
infinity (never larger). The state is the best target so far with its parameters. -/
def targetLoop (names : List String) (default : String → ℚ) (bmax : ℚ) (target : List (String × ℚ) → Option ℚ) :
    List (ℚ × ℚ) → Option (List (String × ℚ) × ℚ) → Option (List (String × ℚ) × ℚ)
  | [], s => s
  | (a, b) :: r, s =>
    match gridParams names default a (b * bmax) with
    | none => targetLoop names default bmax target r s
    | some d =>
      match target d, s with
      | none, _ => targetLoop names default bmax target r s
      | some t, none => targetLoop names default bmax target r (some (d, t))
      | some t, some (d', t') => targetLoop names default bmax target r (if t' < t then some (d, t) else some (d', t'))

/-- The pairs of grid values in the order of the nested loops. -/
def gridPairs (alphas betas : List ℚ) : List (ℚ × ℚ) := alphas.flatMap fun a => betas.map fun b => (a, b)

/-- `LogTarget_Analysis.run` (`experiments.py:1171-1291`); `none` is an exception: fewer than two learned parameters, no comparable
target, or no parameter called `alpha` or `beta`. The dataset `log_posterior_approximation` is created but nothing is written to it:
`run` never calls `write_data`. -/
def logTarget (names : List String) (default : String → ℚ) (bmax : ℚ) (alphas betas : List ℚ)
    (target : List (String × ℚ) → Option ℚ) : Option TargetReport :=
  if names.length < 2 then none
  else
    match targetLoop names default bmax target (gridPairs alphas betas) none with
    | none => none
    | some (d, t) =>
      match d.lookup "alpha", d.lookup "beta" with
      | some a, some b => some ⟨a, b, b / bmax, t⟩
      | _, _ => none

end GeNSIT
