import Verif.Chain.Lemmas
import Verif.Chain.Spec
import Mathlib.Tactic.NormNum

/-!
# Property theorems C06 – C13, C22 (table sampler)
-/

namespace GeNSIT

open Spec

set_option linter.unusedSimpArgs false

/-! ## C06 -/

/-- **C06.**  For every drawn move, step size and uniform draw: if the degree-one step returns `(t', acc)` from a
non-negative table `t`, then `t'` is non-negative, has the same constrained margins and total and the same fixed
cells; the step either accepted the proposal or kept `t`, and a proposal with a negative cell was not accepted. -/
theorem C06_degree_one_step {m n : Nat} (s : Sampler m n) (hk : BasisKind s.constrained) (pick : Cell m n → Nat)
    (hb : generateBasis s.constrained s.fixed pick = some s.basis) (t t' : Table m n) (ht : Nonneg t)
    (idx : Nat) (eps : Int) (logU : WithBot ℝ) (acc : Nat)
    (hs : s.step t (.one idx eps logU) = some (t', acc)) :
    Nonneg t' ∧ ([1] ∈ s.constrained → ∀ i, rowSum t' i = rowSum t i) ∧
    ([0] ∈ s.constrained → ∀ j, colSum t' j = colSum t j) ∧ total t' = total t ∧ AgreeAt s.fixed t' t ∧
    (∃ mv ∈ s.basis, (acc = 1 ∧ t' = applyMove t mv eps ∧ Nonneg (applyMove t mv eps)) ∨ (acc = 0 ∧ t' = t)) := by
  simp only [Sampler.step, degreeOne] at hs
  cases hmv : s.basis[idx]? with
  | none => simp [hmv] at hs
  | some mv =>
    have hmem : mv ∈ s.basis := List.mem_of_getElem? hmv
    simp only [hmv, Option.map_some, Option.bind_eq_bind, Option.bind_some] at hs
    cases hr : metropolisLogAcc (applyMove t mv eps) t s.logI with
    | none => simp [hr] at hs
    | some r =>
      simp only [hr, Option.bind_some] at hs
      have hneg : ¬ Nonneg (applyMove t mv eps) → r = ⊥ := by
        intro h
        unfold metropolisLogAcc at hr
        have : tableNonnegative (applyMove t mv eps) = false := by
          rw [Bool.eq_false_iff]; intro h'; exact h ((tableNonnegative_iff _).mp h')
        cases hl : logTargetDiff (applyMove t mv eps) t s.logI with
        | none => simp [hl] at hr
        | some x => simpa [hl, this] using hr.symm
      obtain ⟨p1, p2, p3, p4⟩ := generated_move_preserves hk hb hmem t eps
      by_cases hc : 0 ≤ r ∨ logU < r
      · rw [if_pos hc] at hs
        have hnn : Nonneg (applyMove t mv eps) := by
          by_contra h
          rw [hneg h] at hc
          rcases hc with hc | hc
          · exact absurd hc (by simp)
          · exact not_lt_bot hc
        obtain ⟨rfl, rfl⟩ : applyMove t mv eps = t' ∧ 1 = acc := by simpa using hs
        exact ⟨hnn, p1, p2, p3, p4, mv, hmem, Or.inl ⟨rfl, rfl, hnn⟩⟩
      · rw [if_neg hc] at hs
        obtain ⟨rfl, rfl⟩ : t = t' ∧ 0 = acc := by simpa using hs
        exact ⟨ht, fun _ _ => rfl, fun _ _ => rfl, rfl, fun _ _ _ => rfl, mv, hmem, Or.inr ⟨rfl, rfl⟩⟩

/-! ## C07 -/

/-- **C07.**  Both margins constrained, any move of the generated basis, any current non-negative table: there is a
2×2 rectangle of free cells such that resampling with any value `v` returns a table with the same row sums,
column sums, total and fixed cells; `v` becomes the upper-left entry and only the rectangle changes; and the new
table is non-negative exactly when `v` is in the hypergeometric support of the rectangle. -/
theorem C07_degree_higher_step {m n : Nat} (constrained : List Ax) (hk : BothMargins constrained)
    (fixed : List (Cell m n)) (pick : Cell m n → Nat) (basis : List (Move m n))
    (hb : generateBasis constrained fixed pick = some basis) (mv : Move m n) (hmv : mv ∈ basis)
    (t : Table m n) (ht : Nonneg t) :
    ∃ i₁ i₂ : Fin m, ∃ j₁ j₂ : Fin n, i₁ < i₂ ∧ j₁ < j₂ ∧
      (i₁, j₁) ∉ fixed ∧ (i₁, j₂) ∉ fixed ∧ (i₂, j₁) ∉ fixed ∧ (i₂, j₂) ∉ fixed ∧
      ∀ v : Int, ∃ t', degreeHigher t mv (some v) = some t' ∧ t' i₁ j₁ = v ∧
        (∀ i j, (i ≠ i₁ ∧ i ≠ i₂) ∨ (j ≠ j₁ ∧ j ≠ j₂) → t' i j = t i j) ∧
        (∀ i, rowSum t' i = rowSum t i) ∧ (∀ j, colSum t' j = colSum t j) ∧ total t' = total t ∧
        AgreeAt fixed t' t ∧
        (Nonneg t' ↔ HyperSupport (t i₁ j₁ + t i₁ j₂) (t i₁ j₁ + t i₂ j₁)
          (t i₁ j₁ + t i₁ j₂ + t i₂ j₁ + t i₂ j₂) v) := by
  obtain ⟨a, b, h1, h2, ha, hb', hab, hba, rfl⟩ := both_basis_mem hk hb hmv
  refine ⟨a.1, b.1, a.2, b.2, h1, h2, ha, hab, hba, hb', fun v => ?_⟩
  obtain ⟨p1, p2, p3, p4⟩ := generated_move_preserves (Or.inr (Or.inr hk)) hb hmv t (v - t a.1 a.2)
  have m1 : [1] ∈ constrained := (hk.2 _).mpr (by simp)
  have m0 : [0] ∈ constrained := (hk.2 _).mpr (by simp)
  refine ⟨_, degreeHigher_corner t h1 h2 (some v), ?_, ?_, p1 m1, p2 m0, p3, p4, ?_⟩
  · rw [corner_effect t h1 h2]
    simp [ne_of_lt h1, ne_of_lt h2]
  · intro i j hij
    rw [corner_effect t h1 h2]
    rcases hij with ⟨e1, e2⟩ | ⟨e1, e2⟩ <;> simp [e1, e2]
  · rw [corner_nonneg_iff ht h1 h2]
    simp only [HyperSupport, Option.getD_some]
    omega

/-- The value used when the random generator raises is `0`; the resulting table need not be non-negative and is
accepted nevertheless (finding). -/
theorem C07_fallback_can_go_negative :
    ∃ (t : Table 2 2) (mv : Move 2 2) (t' : Table 2 2),
      generateBasis (m := 2) (n := 2) [[0], [0, 1], [1]] [] (fun _ => 0) = some [mv] ∧ Nonneg t ∧
      degreeHigher t mv none = some t' ∧ ¬ Nonneg t' := by
  refine ⟨fun i j => if i = 0 ∧ j = 0 then 1 else 0, cornerMove (0, 0) (1, 1), _, by decide +kernel, ?_,
    degreeHigher_corner _ (by decide) (by decide) none, ?_⟩
  · intro i j; simp only; split <;> omega
  · intro h
    have := h 1 1
    revert this
    decide

/-! ## C08 -/

/-- **C08.**  If the start table is non-negative and meets the constraints, so does every table the sampler ever
holds, for any number of steps of the degree-one, degree-higher and direct proposals and any draws.  The basis is
a generated one (or empty, when no margin or only the total is constrained). -/
theorem C08_chain_invariant {m n : Nat} (s : Sampler m n) (row : Fin m → Int) (col : Fin n → Int) (tot : Int)
    (hm : Stores s.margins row col tot) (hc : TwoWay s.constrained)
    (hb : s.basis = [] ∨ (BasisKind s.constrained ∧ ∃ pick, generateBasis s.constrained s.fixed pick = some s.basis))
    (t₀ : Table m n) (h₀ : Nonneg t₀) (hmeet : Meets s.constrained row col tot s.fixed s.truth t₀)
    (t : Table m n) (hr : Reached s t₀ t) :
    Nonneg t ∧ Meets s.constrained row col tot s.fixed s.truth t := by
  have carry : ∀ t t' : Table m n, Meets s.constrained row col tot s.fixed s.truth t →
      ([1] ∈ s.constrained → ∀ i, rowSum t' i = rowSum t i) → ([0] ∈ s.constrained → ∀ j, colSum t' j = colSum t j) →
      total t' = total t → AgreeAt s.fixed t' t → Meets s.constrained row col tot s.fixed s.truth t' := by
    intro t t' h g1 g0 g01 gc
    exact ⟨fun h1 i => (g1 h1 i).trans (h.rows h1 i), fun h0 j => (g0 h0 j).trans (h.cols h0 j),
      fun h01 => g01.trans (h.grand h01), fun i j hij => (gc i j hij).trans (h.cells i j hij)⟩
  induction hr with
  | start => exact ⟨h₀, hmeet⟩
  | step t t' d acc _ hok hstep ih =>
    obtain ⟨hn, hme⟩ := ih
    cases d with
    | one idx eps logU =>
      rcases hb with hb | ⟨hk, pick, hb⟩
      · simp [Sampler.step, degreeOne, hb] at hstep
      · obtain ⟨g, g1, g0, g01, gc, _⟩ := C06_degree_one_step s hk pick hb t t' hn idx eps logU acc hstep
        exact ⟨g, carry t t' hme g1 g0 g01 gc⟩
    | higher idx val =>
      simp only [Sampler.step] at hstep
      by_cases hf : distributionName s.constrained = some "fishers_hypergeometric"
      · rw [if_pos hf] at hstep
        cases hmv : s.basis[idx]? with
        | none => simp [hmv] at hstep
        | some mv =>
          have hmem : mv ∈ s.basis := List.mem_of_getElem? hmv
          rcases hb with hb | ⟨hk, pick, hb⟩
          · simp [hb] at hmem
          · have hboth : BothMargins s.constrained := by
              rcases hk with hk | hk | hk
              · exfalso
                have hd : (s.constrained.filter (fun a => a.length == 1)).dedup.length ≤ 1 := by
                  have hsub : (s.constrained.filter (fun a => a.length == 1)).dedup ⊆ [[1]] := by
                    intro a ha
                    simp only [List.mem_dedup, List.mem_filter, beq_iff_eq, hk.2] at ha
                    rcases ha with ⟨rfl | rfl, h⟩
                    · simp
                    · simp at h
                  simpa using ((List.nodup_dedup _).subperm hsub).length_le
                simp only [distributionName] at hf
                split_ifs at hf <;> simp_all
              · exfalso
                have hd : (s.constrained.filter (fun a => a.length == 1)).dedup.length ≤ 1 := by
                  have hsub : (s.constrained.filter (fun a => a.length == 1)).dedup ⊆ [[0]] := by
                    intro a ha
                    simp only [List.mem_dedup, List.mem_filter, beq_iff_eq, hk.2] at ha
                    rcases ha with ⟨rfl | rfl, h⟩
                    · simp
                    · simp at h
                  simpa using ((List.nodup_dedup _).subperm hsub).length_le
                simp only [distributionName] at hf
                split_ifs at hf <;> simp_all
              · exact hk
            obtain ⟨a, b, h1, h2, _, _, _, _, rfl⟩ := both_basis_mem hboth hb hmem
            obtain ⟨v, rfl, hv⟩ := hok _ hmv a.1 b.1 a.2 b.2 h1 h2 rfl
            simp only [hmv, Option.bind_eq_bind, Option.bind_some, degreeHigher_corner t h1 h2] at hstep
            obtain ⟨rfl, _⟩ := Prod.mk.inj (Option.some.inj hstep)
            obtain ⟨p1, p2, p3, p4⟩ := generated_move_preserves hk hb hmem t ((some v).getD 0 - t a.1 a.2)
            refine ⟨?_, carry t _ hme p1 p2 p3 p4⟩
            rw [corner_nonneg_iff hn h1 h2]
            simp only [HyperSupport] at hv
            simp only [Option.getD_some]
            omega
      · rw [if_neg hf] at hstep
        exact absurd hstep (by simp)
    | direct outs =>
      simp only [Sampler.step] at hstep
      cases hl : rejectionLoop (tableAdmissible s.truth s.margins s.constrained s.fixed) outs with
      | none => simp [hl] at hstep
      | some x =>
        simp only [hl, Option.bind_eq_bind, Option.bind_some] at hstep
        obtain ⟨rfl, _⟩ := Prod.mk.inj (Option.some.inj hstep)
        obtain ⟨hmem, hadm⟩ := rejectionLoop_some hl
        obtain ⟨b, hb', hiff⟩ := C20_table_admissible_iff s.margins row col tot hm s.constrained hc s.fixed s.truth x
        rw [hadm] at hb'
        exact ⟨hok x hmem, hiff.mp (Option.some.inj hb').symm⟩

/-! ## C09 -/

/-- **C09.**  For a non-negative table and a rectangle move of either sign (its four cells listed in lexicographic
order) the list of step sizes contains, once each, exactly the integers for which the moved table is
non-negative. -/
theorem C09_step_size_support {m n : Nat} (t : Table m n) (ht : Nonneg t) (i₁ i₂ : Fin m) (j₁ j₂ : Fin n)
    (hi : i₁ < i₂) (hj : j₁ < j₂) (sgn : Int) (hs : sgn = 1 ∨ sgn = -1) (mv : Move m n)
    (hmv : mv = [((i₁, j₁), sgn), ((i₂, j₂), sgn), ((i₁, j₂), -sgn), ((i₂, j₁), -sgn)]) :
    ∃ l, stepSizeSupport t mv [(i₁, j₁), (i₁, j₂), (i₂, j₁), (i₂, j₂)] = some l ∧ l.Nodup ∧
      ∀ eps, eps ∈ l ↔ Nonneg (applyMove t mv eps) := by
  have n1 : i₁ ≠ i₂ := ne_of_lt hi
  have n2 : j₁ ≠ j₂ := ne_of_lt hj
  rcases hs with rfl | rfl
  · have hmv' : mv = cornerMove (i₁, j₁) (i₂, j₂) := hmv
    subst hmv'
    refine ⟨pyRange (-(min (t i₁ j₁) (t i₂ j₂))) (min (t i₁ j₂) (t i₂ j₁) + 1), ?_, pyRange_nodup _ _, ?_⟩
    · simp [stepSizeSupport, cornerMove, moveAt]
    · intro eps
      rw [mem_pyRange, corner_nonneg_iff (a := (i₁, j₁)) (b := (i₂, j₂)) ht hi hj]
      simp only
      omega
  · subst hmv
    refine ⟨pyRange (-(min (t i₁ j₂) (t i₂ j₁))) (min (t i₁ j₁) (t i₂ j₂) + 1), ?_, pyRange_nodup _ _, ?_⟩
    · simp [stepSizeSupport, moveAt]
    · intro eps
      have e : applyMove t [((i₁, j₁), -1), ((i₂, j₂), -1), ((i₁, j₂), - -1), ((i₂, j₁), - -1)] eps =
          applyMove t (cornerMove (i₁, j₁) (i₂, j₂)) (-eps) := by
        simp [applyMove, cornerMove]
      rw [mem_pyRange, e, corner_nonneg_iff (a := (i₁, j₁)) (b := (i₂, j₂)) ht hi hj]
      simp only
      omega

/-! ### Non-vacuity of C06 – C09 -/

/-- A 2×3 sampler with both margins constrained and its generated basis. -/
noncomputable def exSampler : Sampler 2 3 where
  truth := fun _ _ => 1
  margins := updateMarginsFromTable (fun _ _ => 1 : Table 2 3) (fun _ => none)
  constrained := [[0], [0, 1], [1]]
  fixed := [(1, 2)]
  basis := [[((0, 0), 1), ((1, 1), 1), ((0, 1), -1), ((1, 0), -1)]]
  logI := none

example : BothMargins exSampler.constrained ∧ TwoWay exSampler.constrained ∧
    generateBasis exSampler.constrained exSampler.fixed (fun _ => 0) = some exSampler.basis ∧
    Stores exSampler.margins (fun _ : Fin 2 => 3) (fun _ : Fin 3 => 2) 6 ∧
    Meets exSampler.constrained (fun _ => 3) (fun _ => 2) 6 exSampler.fixed exSampler.truth (fun _ _ => 1) := by
  refine ⟨⟨rfl, fun a => ?_⟩, fun a ha => ?_, by decide +kernel, ⟨by decide +kernel, by decide +kernel,
    by decide +kernel⟩, ⟨fun _ => by decide, fun _ => by decide, fun _ => by decide, fun _ _ _ => rfl⟩⟩
  · simp only [exSampler, List.mem_cons, List.not_mem_nil, or_false]; tauto
  · simp only [exSampler, List.mem_cons, List.not_mem_nil, or_false] at ha; tauto

/-- A degree-one step of that sampler that is accepted. -/
example : ∃ t', exSampler.step (fun _ _ => 1) (.one 0 1 ⊥) = some (t', 1) ∧ t' ≠ (fun _ _ => 1) := by
  have hadm : ∃ r : ℝ, metropolisLogAcc (applyMove (fun _ _ => 1 : Table 2 3)
      [((0, 0), 1), ((1, 1), 1), ((0, 1), -1), ((1, 0), -1)] 1) (fun _ _ => 1) none = some (r : WithBot ℝ) := by
    have hd : diffCells (applyMove (fun _ _ => 1 : Table 2 3)
      [((0, 0), 1), ((1, 1), 1), ((0, 1), -1), ((1, 0), -1)] 1) (fun _ _ => 1) =
        [(0, 0), (0, 1), (1, 0), (1, 1)] := by decide +kernel
    have hn : tableNonnegative (applyMove (fun _ _ => 1 : Table 2 3)
      [((0, 0), 1), ((1, 1), 1), ((0, 1), -1), ((1, 0), -1)] 1) = true := by decide +kernel
    unfold metropolisLogAcc logTargetDiff
    simp only [hd, hn, if_true]
    simp [List.foldlM, factorialTerm, applyMove, Table.at]
    exact ⟨-logFactSum 1 2 + logFactSum 1 1 + logFactSum 1 1 + -logFactSum 1 2, rfl⟩
  obtain ⟨r, hr⟩ := hadm
  refine ⟨applyMove (fun _ _ => 1) [((0, 0), 1), ((1, 1), 1), ((0, 1), -1), ((1, 0), -1)] 1, ?_, ?_⟩
  · simp only [Sampler.step, degreeOne, exSampler, List.getElem?_cons_zero, Option.map_some, Option.bind_eq_bind,
      Option.bind_some, hr]
    rw [if_pos (Or.inr (WithBot.bot_lt_coe r))]
    rfl
  · intro h
    have := congrFun (congrFun h 0) 0
    revert this
    decide

example : HyperSupport 5 4 7 3 ∧ ¬ HyperSupport 5 4 7 1 := by unfold HyperSupport; decide
example : stepSizeSupport (fun i j => if i = 0 ∧ j = 0 then 2 else 1 : Table 2 2) (cornerMove (0, 0) (1, 1))
    [(0, 0), (0, 1), (1, 0), (1, 1)] = some [-1, 0, 1] := by decide +kernel

end GeNSIT
