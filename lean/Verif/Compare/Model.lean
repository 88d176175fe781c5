import Mathlib.Data.Rat.Defs
import Mathlib.Algebra.Order.Field.Rat
import Mathlib.Algebra.BigOperators.Group.List.Basic
import Mathlib.Tactic.Ring
import Mathlib.Tactic.FieldSimp
import Mathlib.Tactic.Linarith

/-!
# The comparison experiments (`gensit/experiments.py`: `XGBoost_Comparison`, `RandomForest_Comparison`, `GBRT_Comparison`,
`GraphAttentionNetwork_Comparison`)

A regression model is trained on the table at the training cells and predicts it at the test cells (validation cells during hyperparameter
optimisation).
-/

namespace GeNSIT

/-- The inputs of a comparison experiment. `features` are the destination region features, one row per region (the origin region features are never
used); `none` is NaN. The masks are read independently of the lists of cells. -/
structure CompareData where
  I : ℕ
  J : ℕ
  features : List (List (Option ℚ))
  cost : List (List ℚ)
  truth : List (List ℚ)
  train : List (ℕ × ℕ)
  eval : List (ℕ × ℕ)
  trainMask : ℕ → ℕ → Bool
  evalMask : ℕ → ℕ → Bool

/-- Indexing a matrix by a cell; `none` is the `IndexError`. -/
def cellOf {α : Type} (m : List (List α)) (c : ℕ × ℕ) : Option α := (m[c.1]?).bind fun r => r[c.2]?

/-- A row of covariates (`experiments.py:2852-2853`, `2857-2858`, and `3059-3065`, `3268-3274`): features of the region with the number of the
origin, features of the destination, cost. -/
def CompareData.row (d : CompareData) (c : ℕ × ℕ) : Option (List (Option ℚ)) := do
  let o ← d.features[c.1]?
  let e ← d.features[c.2]?
  let k ← cellOf d.cost c
  some (o ++ e ++ [some k])

/-- The covariates and the response of the training cells (`experiments.py:2851-2854`). -/
def CompareData.trainSet (d : CompareData) : Option (List (List (Option ℚ)) × List ℚ) := do
  let x ← d.train.mapM d.row
  let y ← d.train.mapM (cellOf d.truth)
  some (x, y)

/-- `populate_array` (`gensit/utils/misc_utils.py:1621-1634`): zero except at the listed cells; of a cell listed twice the later value counts;
`none` is the `ValueError` for a cell outside the shape. -/
def populate (I J : ℕ) (cells : List (ℕ × ℕ)) (res : List ℚ) : Option (ℕ → ℕ → ℚ) :=
  if cells.all (fun c => c.1 < I && c.2 < J) then
    some ((cells.zip res).foldl (fun a e => fun i j => if (i, j) = e.1 then e.2 else a i j) fun _ _ => 0)
  else none

/-- The array before the first prediction (`experiments.py:2867-2877`): `fill` is NaN (`none`) for XGBoost and zero for the others. -/
def CompareData.initial (d : CompareData) (fill : Option ℚ) : ℕ → ℕ → Option ℚ :=
  fun i j => if d.trainMask i j then cellOf d.truth (i, j) else fill

/-- One iteration (`experiments.py:2895-2916`): predict at the evaluation cells and put the predictions where the mask of these is set. -/
def CompareData.step (d : CompareData) (predict : List (Option ℚ) → ℚ) (evalX : List (List (Option ℚ))) (m : ℕ → ℕ → Option ℚ) :
    Option (ℕ → ℕ → Option ℚ) :=
  (populate d.I d.J d.eval (evalX.map predict)).map fun a => fun i j => if d.evalMask i j then some (a i j) else m i j

/-- The loop: the arrays stored, in order. -/
def CompareData.loop (d : CompareData) (predict : ℕ → List (Option ℚ) → ℚ) (evalX : List (List (Option ℚ))) :
    (n t : ℕ) → (ℕ → ℕ → Option ℚ) → Option (List (ℕ → ℕ → Option ℚ))
  | 0, _, _ => some []
  | n + 1, t, m =>
    match d.step (predict t) evalX m with
    | none => none
    | some m' => (d.loop predict evalX n (t + 1) m').map (m' :: ·)

/-- `run` (`experiments.py:2811-2945`, `3016-3157`, `3225-3368`): `fit` is the learning model, which gives from the training set the prediction of each
iteration. The result is what is stored, `N` arrays. -/
def CompareData.run (d : CompareData) (fill : Option ℚ) (N : ℕ)
    (fit : List (List (Option ℚ)) → List ℚ → ℕ → List (Option ℚ) → ℚ) : Option (List (ℕ → ℕ → Option ℚ)) := do
  let (x, y) ← d.trainSet
  let e ← d.eval.mapM d.row
  d.loop (fit x y) e N 0 (d.initial fill)

/-! ## The ensembles -/

/-- Iteration `t` of the forest and of the boosted trees is the prediction of tree `t` alone (`gensit/learning_models/RandomForest.py:88-89`,
`gensit/learning_models/GBRT.py:85-86`). -/
def treeAlone (trees : List (List (Option ℚ) → ℚ)) (t : ℕ) (x : List (Option ℚ)) : ℚ := ((trees[t]?).map fun f => f x).getD 0

/-- The prediction of a forest: the mean over its trees. -/
def Spec.forest (trees : List (List (Option ℚ) → ℚ)) (x : List (Option ℚ)) : ℚ := (trees.map fun f => f x).sum / trees.length

/-- The prediction of boosted trees after the first `n`: the initial prediction plus the learning rate times the sum of the trees. -/
def Spec.boosted (init rate : ℚ) (trees : List (List (Option ℚ) → ℚ)) (n : ℕ) (x : List (Option ℚ)) : ℚ :=
  init + rate * ((trees.take n).map fun f => f x).sum

end GeNSIT
