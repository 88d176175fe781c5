import Verif.Basis.Model
import Mathlib.Analysis.SpecialFunctions.Log.Basic
import Mathlib.Order.WithBot

/-!
# Table proposals and accept/reject steps

Model of `/repo/gensit/contingency_table/ContingencyTable_MCMC.py` (two-way tables).
Random draws are parameters.  Tensors of float32 that hold counts are modelled by `Int`; log intensities are reals.
-/

namespace GeNSIT

/-- Lexicographic (Python tuple) order on cells. -/
def CellLe {m n : Nat} (a b : Cell m n) : Prop := a.1 < b.1 ∨ (a.1 = b.1 ∧ a.2 ≤ b.2)

instance {m n : Nat} : DecidableRel (CellLe (m := m) (n := n)) := fun a b => by unfold CellLe; infer_instance

/-- `sorted(list(cells))`. -/
def sortCells {m n : Nat} (l : List (Cell m n)) : List (Cell m n) := l.insertionSort CellLe

/-- `degree_one_proposal_2way_table` (`ContingencyTable_MCMC.py:589-609`): `idx` is the drawn basis index, `eps` the
drawn sign.  `none` = `np.random.randint(0)` raises because the basis is empty (or an impossible index). -/
def degreeOne {m n : Nat} (basis : List (Move m n)) (idx : Nat) (eps : Int) (t : Table m n) : Option (Table m n) :=
  (basis[idx]?).map fun mv => applyMove t mv eps

/-- Value of a table at a cell. -/
abbrev Table.at {m n : Nat} (t : Table m n) (c : Cell m n) : Int := t c.1 c.2

/-- `degree_higher_proposal_2way_table_fishers_hypergeometric` (`ContingencyTable_MCMC.py:612-669`) for the drawn
move.  `val` is what `nchypergeom_fisher.rvs` returned, `none` if it raised, in which case the code uses `0`
(`:648-659`).  Result `none`: fewer than four cells (IndexError) or not exactly two positive cells (the call of
`log_odds_cross_ratio` at `:634` fails).  The odds ratio only influences the draw and is not represented. -/
def degreeHigher {m n : Nat} (t : Table m n) (mv : Move m n) (val : Option Int) : Option (Table m n) :=
  if (mv.filter fun kv => decide (0 < kv.2)).length = 2 then
    match sortCells (mv.map Prod.fst) with
    | z0 :: z1 :: z2 :: z3 :: rest =>
      let rsum := t.at z0 + t.at z1
      let csum := t.at z0 + t.at z2
      let total := ((z0 :: z1 :: z2 :: z3 :: rest).map t.at).sum
      let v := val.getD 0
      some (fun i j =>
        if (i, j) = z3 then total - rsum - csum + v
        else if (i, j) = z2 then csum - v
        else if (i, j) = z1 then rsum - v
        else if (i, j) = z0 then v
        else t i j)
    | _ => none
  else none

/-- Python's `list(range(a, b))`. -/
def pyRange (a b : Int) : List Int := (List.range (b - a).toNat).map fun (k : Nat) => a + (k : Int)

/-- `get_table_step_size_support` (`ContingencyTable_MCMC.py:370-389`); `none` = IndexError. -/
def stepSizeSupport {m n : Nat} (t : Table m n) (mv : Move m n) (cells : List (Cell m n)) : Option (List Int) :=
  match cells with
  | z0 :: z1 :: z2 :: z3 :: _ =>
    let min1 := min (t.at z0) (t.at z3)
    let min2 := min (t.at z1) (t.at z2)
    if 0 < moveAt mv z0 then some (pyRange (-min1) (min2 + 1)) else some (pyRange (-min2) (min1 + 1))
  | _ => none

/-! ## Metropolis–Hastings ratio -/

/-- `log_factorial_sum(torch.arange(a, b, 1))`: `Σ_{k=a}^{b-1} lgamma(k+1) = Σ log k!`
(`utils/math_utils.py:17-18`). -/
noncomputable def logFactSum (a b : Nat) : ℝ := ∑ k ∈ Finset.Ico a b, Real.log (Nat.factorial k)

/-- Factorial part of one cell in `log_target_measure_difference_2way_table`
(`ContingencyTable_MCMC.py:737-748`).  When the cell decreases, the leftover
`print(torch.arange(max(new,1), 1), ...)` (`:744`) raises if `max(new,1) > 1`: result `none`. -/
noncomputable def factorialTerm (new prev : Int) : Option ℝ :=
  if new > prev then some (-(logFactSum (max prev 1).toNat (max new 1).toNat))
  else if new < prev then
    if 1 < max new 1 then none else some (logFactSum (max new 1).toNat (max prev 1).toNat)
  else some 0

/-- Cells where two tables differ, in row-major order (`torch.argwhere`, `ContingencyTable_MCMC.py:679`). -/
def diffCells {m n : Nat} (new prev : Table m n) : List (Cell m n) :=
  (allCells m n).filter fun c => decide (new.at c ≠ prev.at c)

/-- `log_target_measure_difference_2way_table` (`ContingencyTable_MCMC.py:718-751`); `logI = none` is
`log_intensity is None`. -/
noncomputable def logTargetDiff {m n : Nat} (new prev : Table m n) (logI : Option (Fin m → Fin n → ℝ)) : Option ℝ :=
  (diffCells new prev).foldlM (fun acc c =>
    (factorialTerm (new.at c) (prev.at c)).map fun f =>
      acc + (match logI with
        | none => 0
        | some w => ((new.at c - prev.at c : Int) : ℝ) * w c.1 c.2) + f) 0

/-- `metropolis_log_acceptance_ratio_2way_table` (`ContingencyTable_MCMC.py:671-698`); `⊥` is `-inf`. -/
noncomputable def metropolisLogAcc {m n : Nat} (new prev : Table m n) (logI : Option (Fin m → Fin n → ℝ)) :
    Option (WithBot ℝ) :=
  (logTargetDiff new prev logI).map fun (x : ℝ) => if tableNonnegative new then (x : WithBot ℝ) else ⊥

/-! ## Direct sampling -/

/-- `table_new[indices] = values` for a list of distinct cells; `none` on a length mismatch. -/
def fillCells {m n : Nat} (t : Table m n) (cells : List (Cell m n)) (vals : List Int) : Option (Table m n) :=
  if cells.length = vals.length then
    some ((cells.zip vals).foldl (fun acc cv => fun i j => if (i, j) = cv.1 then cv.2 else acc i j) t)
  else none

/-- Zero table with the fixed cells set to their known values
(`ContingencyTable_MCMC.py:398-406`, `:424-432`, `:459-467`). -/
def fixedTable {m n : Nat} (truth : Table m n) (fixed : List (Cell m n)) : Table m n :=
  fixed.foldl (fun acc c => fun i j => if (i, j) = c then truth c.1 c.2 else acc i j) (fun _ _ => 0)

/-- `poisson_sample_2way_table` / `multinomial_sample_2way_table` (`ContingencyTable_MCMC.py:396-418`, `:420-454`):
`draws` are the sampled counts of the free cells in lexicographic order.  They only differ in the distribution of
`draws`: independent counts versus counts adding up to the residual total. -/
def sampleFreeCells {m n : Nat} (truth : Table m n) (fixed : List (Cell m n)) (draws : List Int) :
    Option (Table m n) :=
  fillCells (fixedTable truth fixed) (freeCells fixed) draws

/-- `table_new[fixed_cells] = ground_truth_table[fixed_cells]` (`ContingencyTable_MCMC.py:500`): `fixed_cells` is a
`(k, 2)` index array, which numpy/torch index along the *first* axis only: every row whose index occurs as a row
**or column** coordinate of a fixed cell is overwritten by the ground-truth row; `none` = IndexError when a column
coordinate is not a row index. -/
def affixRows {m n : Nat} (truth : Table m n) (fixed : List (Cell m n)) (t : Table m n) : Option (Table m n) :=
  if fixed.all fun c => decide (c.2.val < m) then
    some (fun i j => if fixed.any (fun c => c.1.val == i.val || c.2.val == i.val) then truth i j else t i j)
  else none

/-- Free cells of group `k` (row `k` if `byRow`, else column `k`), in lexicographic order
(`sample_multinomial_row`, `utils/probability_utils.py:344-346`). -/
def groupCells {m n : Nat} (fixed : List (Cell m n)) (byRow : Bool) (k : Nat) : List (Cell m n) :=
  (freeCells fixed).filter fun c => if byRow then c.1.val == k else c.2.val == k

/-- One pass of the loop of `product_multinomial_sample_2way_table` (`ContingencyTable_MCMC.py:480-502`):
`blocks` holds the counts drawn for each group; their concatenation is written to the free cells in
lexicographic order, whatever the constrained axis is (`:498`). -/
def productMultinomialPass {m n : Nat} (truth : Table m n) (fixed : List (Cell m n)) (blocks : List (List Int)) :
    Option (Table m n) := do
  let t ← fillCells (fixedTable truth fixed) (freeCells fixed) blocks.flatten
  affixRows truth fixed t

/-- Rejection loop of `direct_sampling_proposal_2way_table` and of the product-multinomial sampler
(`ContingencyTable_MCMC.py:551-586`, `:480-512`): `outs` are the successive sampler outputs; the first admissible
one is returned.  `none`: still looping when the outputs are exhausted, or an exception. -/
def rejectionLoop {m n : Nat} (admissible : Table m n → Option Bool) : List (Table m n) → Option (Table m n)
  | [] => none
  | t :: rest =>
    match admissible t with
    | none => none
    | some true => some t
    | some false => rejectionLoop admissible rest

/-! ## One table step -/

/-- Everything `table_gibbs_step` reads apart from the draws. -/
structure Sampler (m n : Nat) where
  truth : Table m n
  margins : Margins
  constrained : List Ax
  fixed : List (Cell m n)
  basis : List (Move m n)
  logI : Option (Fin m → Fin n → ℝ)

/-- The random outcomes of one table step, by proposal type. -/
inductive Draw (m n : Nat)
  | one (idx : Nat) (eps : Int) (logU : WithBot ℝ)
  | higher (idx : Nat) (val : Option Int)
  | direct (outs : List (Table m n))

open Classical in
/-- `table_gibbs_step` (`ContingencyTable_MCMC.py:754-775`) with the proposal and acceptance ratio chosen by
`build_table_distribution` (`:278-322`).  `logU` is `torch.log(torch.rand(1))`.  The degree-higher proposal only
exists for Fisher's hypergeometric distribution (`getattr` at `:303` raises otherwise); for it and for direct
sampling the log ratio is `0`, so the proposal is always accepted (`:700-715`). -/
noncomputable def Sampler.step {m n : Nat} (s : Sampler m n) (t : Table m n) : Draw m n → Option (Table m n × Nat)
  | .one idx eps logU => do
      let new ← degreeOne s.basis idx eps t
      let acc ← metropolisLogAcc new t s.logI
      if 0 ≤ acc ∨ logU < acc then return (new, 1) else return (t, 0)
  | .higher idx val =>
      if distributionName s.constrained = some "fishers_hypergeometric" then do
        let mv ← s.basis[idx]?
        let new ← degreeHigher t mv val
        return (new, 1)
      else none
  | .direct outs => do
      let new ← rejectionLoop (tableAdmissible s.truth s.margins s.constrained s.fixed) outs
      return (new, 1)

/-! ## Choice of proposal -/

/-- `update_proposal_type` (`ContingencyTable_MCMC.py:118-140`).  Note the statements
`self.proposal_type == 'direct_sampling'` (`:128`) and `self.proposal_type == 'degree_higher'` (`:134`), which
compare instead of assigning, so they have no effect. -/
def updateProposalType (dist proposal : String) (nFixed : Nat) : String :=
  if dist == "poisson" then
    let _ := proposal == "direct_sampling"
    proposal
  else if (dist == "multinomial" || dist == "product_multinomial") && decide (nFixed > 0) then
    if proposal == "direct_sampling" then
      let _ := proposal == "degree_higher"
      proposal
    else proposal
  else if dist == "fishers_hypergeometric" && proposal == "direct_sampling" && decide (nFixed > 0) then
    "degree_higher"
  else proposal

end GeNSIT
