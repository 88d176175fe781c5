import Verif.Chain.SampleLemmas
import Mathlib.Tactic.NormNum

/-!
# Property theorems C10 – C13 and C22 (acceptance ratio, direct samplers, proposal choice)
-/

namespace GeNSIT

open Spec

set_option linter.unusedSimpArgs false

/-! ## C10 -/

/-- The acceptance ratio raises exactly when some cell decreases to a value of at least two (finding: a leftover
debug print builds an ill-formed range). -/
theorem C10_raises_iff {m n : Nat} (new prev : Table m n) (logI : Option (Fin m → Fin n → ℝ)) :
    logTargetDiff new prev logI = none ↔ ∃ i j, 2 ≤ new i j ∧ new i j < prev i j := by
  constructor
  · intro h
    by_contra hno
    push Not at hno
    have hall : ∀ c ∈ diffCells new prev, (factorialTerm (new.at c) (prev.at c)).isSome := by
      intro c _
      rw [Option.isSome_iff_ne_none, Ne, factorialTerm_none]
      intro hc
      have := hno c.1 c.2 hc.1
      simp only [Table.at] at hc
      omega
    unfold logTargetDiff at h
    rw [foldlM_addSome _ _ _ _ hall] at h
    simp at h
  · rintro ⟨i, j, h1, h2⟩
    unfold logTargetDiff
    apply foldlM_none
    refine ⟨(i, j), ?_, (factorialTerm_none _ _).mpr ⟨h1, h2⟩⟩
    simp only [diffCells, List.mem_filter, decide_eq_true_eq, Table.at]
    exact ⟨mem_allCells _, by omega⟩

/-- **C10 fails**: for the non-negative tables `prev = [[1,1],[1,1]]` and `new = [[2,0],[0,2]]` (one unit move apart) the
computed log ratio is `0`, the log ratio of the target is `-2 log 2`. -/
theorem C10_ratio_wrong : ∃ new prev : Table 2 2, Nonneg new ∧ Nonneg prev ∧
    (∃ mv ∈ [cornerMove (m := 2) (n := 2) (0, 0) (1, 1)], new = applyMove prev mv 1) ∧
    ∃ r, logTargetDiff new prev none = some r ∧ r = 0 ∧ targetLogRatio new prev none = -2 * Real.log 2 ∧
      r ≠ targetLogRatio new prev none := by
  refine ⟨applyMove (fun _ _ => 1) (cornerMove (0, 0) (1, 1)) 1, fun _ _ => 1, ?_, ?_, ⟨_, by simp, rfl⟩, 0, ?_, rfl, ?_⟩
  · unfold Nonneg; decide +kernel
  · intro _ _; exact Int.one_nonneg
  · have hd : diffCells (applyMove (fun _ _ => 1 : Table 2 2) (cornerMove (0, 0) (1, 1)) 1) (fun _ _ => 1) =
        [(0, 0), (0, 1), (1, 0), (1, 1)] := by decide +kernel
    unfold logTargetDiff
    simp only [hd]
    simp [List.foldlM, factorialTerm, applyMove, cornerMove, Table.at, logFactSum, Finset.sum_Ico_succ_top]
  · have e : targetLogRatio (applyMove (fun _ _ => 1) (cornerMove (0, 0) (1, 1)) 1) (fun _ _ => 1 : Table 2 2) none =
        -2 * Real.log 2 := by
      simp [targetLogRatio, applyMove, cornerMove, Fin.sum_univ_two, Nat.factorial]; ring
    rw [e]
    refine ⟨rfl, ?_⟩
    have := Real.log_pos (by norm_num : (1 : ℝ) < 2)
    intro h; linarith

/-- **C10 (partial).**  For tables with entries in `{0, 1}` the computed log ratio is the log ratio of the target
measure.  Missing: larger entries, for which the statement is false (`C10_ratio_wrong`, `C10_raises_iff`). -/
theorem C10_log_ratio_partial {m n : Nat} (new prev : Table m n) (logI : Option (Fin m → Fin n → ℝ))
    (hn : ∀ i j, 0 ≤ new i j ∧ new i j ≤ 1) (hp : ∀ i j, 0 ≤ prev i j ∧ prev i j ≤ 1) :
    logTargetDiff new prev logI = some (targetLogRatio new prev logI) := by
  have hterm : ∀ c : Cell m n, factorialTerm (new.at c) (prev.at c) = some 0 := by
    intro c
    have h1 := hn c.1 c.2
    have h2 := hp c.1 c.2
    unfold factorialTerm
    have e1 : (max (new c.1 c.2) 1).toNat = 1 := by omega
    have e2 : (max (prev c.1 c.2) 1).toNat = 1 := by omega
    have e3 : ¬ (1 < max (new c.1 c.2) 1) := by omega
    simp only [Table.at, e1, e2, e3, if_false, logFactSum, Finset.Ico_self, Finset.sum_empty, neg_zero]
    split_ifs <;> rfl
  unfold logTargetDiff
  rw [foldlM_addSome _ _ _ _ (fun c _ => by rw [hterm]; rfl)]
  rw [zero_add]
  congr 1
  unfold diffCells
  rw [sum_filter_list]
  · rw [sum_allCells]
    unfold targetLogRatio
    refine Finset.sum_congr rfl fun i _ => Finset.sum_congr rfl fun j _ => ?_
    rw [hterm (i, j)]
    have h1 := hn i j
    have h2 := hp i j
    have f1 : Nat.factorial (prev i j).toNat = 1 := by
      have : (prev i j).toNat = 0 ∨ (prev i j).toNat = 1 := by omega
      rcases this with h | h <;> rw [h] <;> rfl
    have f2 : Nat.factorial (new i j).toNat = 1 := by
      have : (new i j).toNat = 0 ∨ (new i j).toNat = 1 := by omega
      rcases this with h | h <;> rw [h] <;> rfl
    rw [f1, f2]
    cases logI <;> simp
  · intro c _ hc
    have hc' : new.at c = prev.at c := by simpa using hc
    rw [hterm c, hc']
    cases logI <;> simp

/-- **C10 (exact behaviour).**  Whenever the ratio does not raise, it is the sum of `log k!` over the counts passed, not
the difference of the two log factorials. -/
theorem C10_exact {m n : Nat} (new prev : Table m n) (logI : Option (Fin m → Fin n → ℝ))
    (h : ∀ i j, ¬ (2 ≤ new i j ∧ new i j < prev i j)) :
    logTargetDiff new prev logI = some (summedLogRatio new prev logI) := by
  have hterm : ∀ c : Cell m n, factorialTerm (new.at c) (prev.at c) = some
      (logFactSum (max (new.at c) 1).toNat (max (prev.at c) 1).toNat -
        logFactSum (max (prev.at c) 1).toNat (max (new.at c) 1).toNat) := by
    intro c
    have hc := h c.1 c.2
    simp only [Table.at] at *
    unfold factorialTerm
    split
    · next hgt =>
      congr 1
      have e : logFactSum (max (new c.1 c.2) 1).toNat (max (prev c.1 c.2) 1).toNat = 0 := by
        unfold logFactSum
        rw [Finset.Ico_eq_empty (by omega), Finset.sum_empty]
      rw [e, zero_sub]
    · split
      · next hlt =>
        rw [if_neg (by omega)]
        congr 1
        have e : logFactSum (max (prev c.1 c.2) 1).toNat (max (new c.1 c.2) 1).toNat = 0 := by
          unfold logFactSum
          rw [Finset.Ico_eq_empty (by omega), Finset.sum_empty]
        rw [e, sub_zero]
      · next h1 h2 =>
        have e : new c.1 c.2 = prev c.1 c.2 := by omega
        rw [e, sub_self]
  unfold logTargetDiff
  rw [foldlM_addSome _ _ _ _ (fun c _ => by rw [hterm]; rfl)]
  rw [zero_add]
  congr 1
  unfold diffCells
  rw [sum_filter_list]
  · rw [sum_allCells]
    unfold summedLogRatio
    refine Finset.sum_congr rfl fun i _ => Finset.sum_congr rfl fun j _ => ?_
    rw [hterm (i, j)]
    simp only [Table.at, logFactSum, Option.getD_some]
    exact add_comm _ _
  · intro c _ hc
    have hc' : new.at c = prev.at c := by simpa using hc
    rw [hterm c, hc']
    cases logI <;> simp

/-- **C10 (acceptance rule).**  A proposal with a negative cell is never accepted; a non-negative one is accepted exactly
when its log ratio is non-negative or exceeds the log of the uniform draw; a rejection leaves the table as it is. -/
theorem C10_acceptance {m n : Nat} (s : Sampler m n) (t : Table m n) (idx : Nat) (eps : Int) (logU : WithBot ℝ)
    (mv : Move m n) (hmv : s.basis[idx]? = some mv)
    (h : ∀ i j, ¬ (2 ≤ applyMove t mv eps i j ∧ applyMove t mv eps i j < t i j)) :
    (¬ Nonneg (applyMove t mv eps) → s.step t (.one idx eps logU) = some (t, 0)) ∧
    (Nonneg (applyMove t mv eps) →
      (0 ≤ summedLogRatio (applyMove t mv eps) t s.logI ∨
        logU < (summedLogRatio (applyMove t mv eps) t s.logI : WithBot ℝ)) →
      s.step t (.one idx eps logU) = some (applyMove t mv eps, 1)) ∧
    (Nonneg (applyMove t mv eps) → summedLogRatio (applyMove t mv eps) t s.logI < 0 →
      (summedLogRatio (applyMove t mv eps) t s.logI : WithBot ℝ) ≤ logU →
      s.step t (.one idx eps logU) = some (t, 0)) := by
  have hacc : metropolisLogAcc (applyMove t mv eps) t s.logI = some
      (if tableNonnegative (applyMove t mv eps) then
        ((summedLogRatio (applyMove t mv eps) t s.logI : ℝ) : WithBot ℝ) else ⊥) := by
    unfold metropolisLogAcc
    rw [C10_exact _ _ _ h]
    rfl
  have hnn : tableNonnegative (applyMove t mv eps) = true ↔ Nonneg (applyMove t mv eps) := by
    simp [tableNonnegative, Nonneg]
  simp only [Sampler.step, degreeOne, hmv, Option.map_some, Option.bind_eq_bind, Option.bind_some, hacc]
  refine ⟨fun hneg => ?_, fun hpos hr => ?_, fun hpos hlt hle => ?_⟩
  · rw [if_neg (fun e => hneg (hnn.1 e)), if_neg]
    · rfl
    · rintro (h1 | h1)
      · exact absurd h1 (by simp)
      · exact not_lt_bot h1
  · rw [if_pos (hnn.2 hpos), if_pos]
    · rfl
    · rcases hr with hr | hr
      · exact Or.inl (WithBot.coe_le_coe.2 hr)
      · exact Or.inr hr
  · rw [if_pos (hnn.2 hpos), if_neg]
    · rfl
    · rintro (h1 | h1)
      · exact absurd (WithBot.coe_le_coe.1 h1) (not_le.2 hlt)
      · exact absurd h1 (not_lt.2 hle)

example : ∀ i j, ¬ (2 ≤ applyMove (fun _ _ => 1 : Table 2 2) (cornerMove (0, 0) (1, 1)) 1 i j ∧
    applyMove (fun _ _ => 1 : Table 2 2) (cornerMove (0, 0) (1, 1)) 1 i j < 1) := by decide +kernel

example : ∃ new prev : Table 2 2, (∀ i j, 0 ≤ new i j ∧ new i j ≤ 1) ∧ (∀ i j, 0 ≤ prev i j ∧ prev i j ≤ 1) ∧
    new = applyMove prev (cornerMove (0, 0) (1, 1)) 1 ∧ new ≠ prev :=
  ⟨fun i j => if i = j then 1 else 0, fun i j => if i = j then 0 else 1, by decide, by decide, by
    funext i j; revert i j; decide +kernel, fun h => by have := congrFun (congrFun h 0) 0; simp at this⟩

/-! ## C11 -/

/-- **C11.**  Whatever tables the underlying generator produces, a table returned by direct sampling is one of them and
satisfies every constrained margin and every fixed cell. -/
theorem C11_direct_sampling_admissible {m n : Nat} (s : Sampler m n) (row : Fin m → Int) (col : Fin n → Int)
    (tot : Int) (hm : Stores s.margins row col tot) (hc : TwoWay s.constrained) (t t' : Table m n)
    (outs : List (Table m n)) (acc : Nat) (h : s.step t (.direct outs) = some (t', acc)) :
    t' ∈ outs ∧ acc = 1 ∧ Meets s.constrained row col tot s.fixed s.truth t' := by
  simp only [Sampler.step] at h
  cases hl : rejectionLoop (tableAdmissible s.truth s.margins s.constrained s.fixed) outs with
  | none => simp [hl] at h
  | some x =>
    simp only [hl, Option.bind_eq_bind, Option.bind_some] at h
    obtain ⟨rfl, rfl⟩ := Prod.mk.inj (Option.some.inj h)
    obtain ⟨hmem, hadm⟩ := rejectionLoop_some hl
    obtain ⟨b, hb', hiff⟩ := C20_table_admissible_iff s.margins row col tot hm s.constrained hc s.fixed s.truth x
    rw [hadm] at hb'
    exact ⟨hmem, rfl, hiff.mp (Option.some.inj hb').symm⟩

/-- Conversely the loop returns as soon as an admissible table is produced: the first admissible output. -/
theorem C11_direct_sampling_returns {m n : Nat} (s : Sampler m n) (row : Fin m → Int) (col : Fin n → Int)
    (tot : Int) (hm : Stores s.margins row col tot) (hc : TwoWay s.constrained) (t t' : Table m n)
    (bad rest : List (Table m n)) (hbad : ∀ x ∈ bad, ¬ Meets s.constrained row col tot s.fixed s.truth x)
    (hgood : Meets s.constrained row col tot s.fixed s.truth t') :
    s.step t (.direct (bad ++ t' :: rest)) = some (t', 1) := by
  have key : rejectionLoop (tableAdmissible s.truth s.margins s.constrained s.fixed) (bad ++ t' :: rest) = some t' := by
    induction bad with
    | nil =>
      obtain ⟨b, hb, hiff⟩ := C20_table_admissible_iff s.margins row col tot hm s.constrained hc s.fixed s.truth t'
      simp [rejectionLoop, hb, hiff.mpr hgood]
    | cons x bad ih =>
      obtain ⟨b, hb, hiff⟩ := C20_table_admissible_iff s.margins row col tot hm s.constrained hc s.fixed s.truth x
      have hf : b = false := by
        rw [Bool.eq_false_iff]; exact fun h => hbad x (by simp) (hiff.mp h)
      simp only [List.cons_append, rejectionLoop, hb, hf]
      exact ih (fun y hy => hbad y (List.mem_cons_of_mem _ hy))
  simp only [Sampler.step, key, Option.bind_eq_bind, Option.bind_some]
  rfl

example : rejectionLoop (tableAdmissible (fun _ _ => 1 : Table 2 2)
      (updateMarginsFromTable (fun _ _ => 1 : Table 2 2) (fun _ => none)) [[0, 1]] [(0, 0)])
    [fun _ _ => 0, fun i j => if i = 0 ∧ j = 0 then 1 else if i = 1 ∧ j = 1 then 3 else 0, fun _ _ => 1] =
    some (fun i j => if i = 0 ∧ j = 0 then 1 else if i = 1 ∧ j = 1 then 3 else 0) := by
  simp only [rejectionLoop]
  have h1 : tableAdmissible (fun _ _ => 1 : Table 2 2)
      (updateMarginsFromTable (fun _ _ => 1 : Table 2 2) (fun _ => none)) [[0, 1]] [(0, 0)] (fun _ _ => 0) =
      some false := by decide +kernel
  have h2 : tableAdmissible (fun _ _ => 1 : Table 2 2)
      (updateMarginsFromTable (fun _ _ => 1 : Table 2 2) (fun _ => none)) [[0, 1]] [(0, 0)]
      (fun i j => if i = 0 ∧ j = 0 then 1 else if i = 1 ∧ j = 1 then 3 else 0) = some true := by decide +kernel
  rw [h1, h2]

/-! ## C12 -/

/-- **C12.**  With a residual total `tot - (fixed cells)` as propagated by C16 and any draw of that many counts over the
free cells, the sampled table has grand total `tot`, agrees with the known values at the fixed cells and contains
exactly the drawn counts at the free cells. -/
theorem C12_multinomial_total {m n : Nat} (truth : Table m n) (fixed : List (Cell m n)) (tot : Int)
    (draws : List Int) (hlen : draws.length = (freeCells fixed).length)
    (hsum : draws.sum = tot - fixedTotal truth fixed) :
    ∃ t, sampleFreeCells truth fixed draws = some t ∧ total t = tot ∧ AgreeAt fixed t truth ∧
      (freeCells fixed).map (fun c => t c.1 c.2) = draws ∧
      (Nonneg truth → (∀ d ∈ draws, 0 ≤ d) → Nonneg t) := by
  obtain ⟨t, h1, h2, h3⟩ := sampleFreeCells_spec truth fixed draws hlen.symm
  refine ⟨t, h1, ?_, h2, h3, ?_⟩
  · rw [total_split truth t fixed h2, h3, hsum]; ring
  · intro ht hd i j
    by_cases hij : (i, j) ∈ fixed
    · rw [h2 i j hij]; exact ht i j
    · apply hd
      rw [← h3]
      exact List.mem_map.mpr ⟨(i, j), (mem_freeCells _ _).mpr hij, rfl⟩

example : (sampleFreeCells (fun _ _ => 2 : Table 2 2) [(0, 1)] [3, 0, 3]).map
    (fun t => (t 0 0, t 0 1, t 1 0, t 1 1)) = some (3, 2, 0, 3) ∧
    [3, 0, 3].sum = (8 : Int) - fixedTotal (fun _ _ => 2 : Table 2 2) [(0, 1)] := by decide +kernel

/-! ## C13 -/

/-- **C13 (partial), rows constrained, no fixed cells.**  The counts drawn for row `i` become row `i`, so every row sum
is the requested one for every draw.  Missing: fixed cells (`C13_fixed_cells_clobbered`) and column constraints
(`C13_columns_misplaced`), where the property is false. -/
theorem C13_rows_partial {m n : Nat} (truth : Table m n) (row : Fin m → Int) (blocks : Fin m → List Int)
    (hlen : ∀ i, (blocks i).length = n) (hsum : ∀ i, (blocks i).sum = row i) :
    ∃ t, productMultinomialPass truth [] (List.ofFn blocks) = some t ∧ (∀ i, List.ofFn (t i) = blocks i) ∧
      ∀ i, rowSum t i = row i := by
  have hgroup : ∀ i : Fin m, groupCells (n := n) [] true i.val = (List.finRange n).map fun j => (i, j) := by
    intro i
    rw [groupCells_rows]
    simp
  have hflat : (List.ofFn blocks).flatten = (List.finRange m).flatMap blocks := by
    rw [List.ofFn_eq_map, List.flatMap_def]
  have hl : (freeCells (m := m) (n := n) []).length = (List.ofFn blocks).flatten.length := by
    rw [freeCells_by_rows, hflat, List.length_flatMap, List.length_flatMap]
    congr 1
    apply List.map_congr_left
    intro i _
    rw [hgroup i, hlen i]; simp
  obtain ⟨t, h1, _, h3⟩ := fillCells_spec (freeCells []) (List.ofFn blocks).flatten (fixedTable truth [])
    (freeCells_nodup []) hl
  have hrows : ∀ i, List.ofFn (t i) = blocks i := by
    intro i
    rw [hflat, freeCells_by_rows] at h3
    have := flatMap_blocks _ _ _ (fun i => by rw [hgroup i, hlen i]; simp) _ h3 i (by simp)
    rw [hgroup i, List.map_map] at this
    rw [← this, List.ofFn_eq_map]
    rfl
  refine ⟨t, ?_, hrows, ?_⟩
  · unfold productMultinomialPass
    rw [h1]
    simp [affixRows]
  · intro i
    rw [← hsum i, ← hrows i, List.sum_ofFn]
    rfl

/-- **C13 fails for column constraints**: the blocks drawn per column are written in row-major order, so draws with
the right column totals give a table with wrong column sums (the sampler then has to retry). -/
theorem C13_columns_misplaced : ∃ (col : Fin 2 → Int) (blocks : Fin 2 → List Int) (t : Table 2 2),
    (∀ j, (blocks j).length = (groupCells (m := 2) (n := 2) [] false j.val).length) ∧
    (∀ j, (blocks j).sum = col j) ∧ productMultinomialPass (fun _ _ => 0) [] (List.ofFn blocks) = some t ∧
    ¬ ∀ j, colSum t j = col j := by
  refine ⟨![1, 2], ![[1, 0], [2, 0]], fun i j => if j = 0 then (if i = 0 then 1 else 2) else 0, by decide +kernel,
    by decide +kernel, ?_, by decide +kernel⟩
  have h : ∀ o : Option (Table 2 2), o.map (fun t => (t 0 0, t 0 1, t 1 0, t 1 1)) = some (1, 0, 2, 0) →
      o = some (fun i j => if j = 0 then (if i = 0 then 1 else 2) else 0) := by
    intro o ho
    cases o with
    | none => simp at ho
    | some t =>
      simp only [Option.map_some, Option.some.injEq, Prod.mk.injEq] at ho
      obtain ⟨a, b, c, d⟩ := ho
      congr 1
      funext i j
      fin_cases i <;> fin_cases j <;> simp_all
  apply h
  decide +kernel

/-- **C13 fails with fixed cells**: `table_new[fixed_cells] = …` indexes whole rows, so the counts drawn for the free
cells of such a row are replaced by the ground-truth row (finding).  Row `0` here has one fixed cell. -/
theorem C13_fixed_cells_clobbered :
    (productMultinomialPass (fun _ _ => 1 : Table 2 3) [(0, 0)] [[2, 0], [1, 1, 1]]).map
      (fun t => (List.ofFn (t 0), List.ofFn (t 1))) = some ([1, 1, 1], [1, 1, 1]) ∧
    groupCells (m := 2) (n := 3) [(0, 0)] true 0 = [(0, 1), (0, 2)] := by decide +kernel

example : (∀ i : Fin 2, ((![[2, 0, 1], [0, 0, 5]] : Fin 2 → List Int) i).length = 3) ∧
    (∀ i : Fin 2, ((![[2, 0, 1], [0, 0, 5]] : Fin 2 → List Int) i).sum = (![3, 5] : Fin 2 → Int) i) := by
  decide +kernel

/-! ## C22 -/

/-- **C22 fails**: for Poisson, multinomial and product-multinomial tables nothing is ever replaced, whatever proposal was
requested and however many cells are fixed (the code compares with `==` instead of assigning). -/
theorem C22_never_replaced (dist proposal : String) (nFixed : Nat)
    (h : dist = "poisson" ∨ dist = "multinomial" ∨ dist = "product_multinomial") :
    updateProposalType dist proposal nFixed = proposal := by
  rcases h with rfl | rfl | rfl <;> simp [updateProposalType]

/-- **C22 (partial).**  For Fisher's hypergeometric distribution direct sampling is replaced by the degree-higher
proposal exactly when some cell is fixed; every other request is kept.  Missing: the tractable distributions, for
which the announced replacement does not happen (`C22_never_replaced`). -/
theorem C22_fisher_partial (proposal : String) (nFixed : Nat) :
    updateProposalType "fishers_hypergeometric" proposal nFixed =
      if proposal = "direct_sampling" ∧ 0 < nFixed then "degree_higher" else proposal := by
  simp [updateProposalType]

example : updateProposalType "fishers_hypergeometric" "direct_sampling" 2 = "degree_higher" := by decide
example : updateProposalType "poisson" "degree_one" 0 = "degree_one" := by decide

end GeNSIT
