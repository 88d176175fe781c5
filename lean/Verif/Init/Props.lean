import Verif.Init.MaxEntLemmas
import Verif.Init.MonteCarlo

/-!
# Property theorem C15 (maximum-entropy initialisation)
-/

namespace GeNSIT

open Spec

set_option linter.unusedSimpArgs false

theorem maxEntLoop_terminates {m n : Nat} {constrained : List Ax} {row : Fin m → Int} {col : Fin n → Int} {tot : Int}
    (hm : 0 < m) (hn : 0 < n) (hnd : constrained.Nodup) (htw : TwoWay constrained) (h01 : [0, 1] ∈ constrained)
    (hr : [1] ∈ constrained → ∑ i, row i = tot) (hc : [0] ∈ constrained → ∑ j, col j = tot)
    (truth : Table m n) (adm : Table m n → Option Bool)
    (hadm : ∀ t, Meets constrained row col tot [] truth t → adm t = some true)
    (stop : Option (List Int) → Bool) (hstop : ∀ x, stop (some [x]) = true → x = 0) (idx : Nat → Nat) :
    ∀ (fuel k : Nat) (s : MaxEnt m n), MaxEntInv constrained row col tot s → s.free.Nodup → s.unchosen ≠ [] →
      (s.free.length : Int) + (tot - total s.table) ≤ fuel →
      ∃ t, maxEntLoop adm constrained stop idx fuel k s = .done t ∧ Nonneg t ∧
        Meets constrained row col tot [] truth t := by
  intro fuel
  induction fuel with
  | zero =>
    intro k s hi _ hne hle
    have := hi.below.grand
    have hpos : 0 < s.free.length := by
      obtain ⟨c, l, hcl⟩ := List.exists_cons_of_ne_nil hne
      exact List.length_pos_of_mem (hi.sub c (by rw [hcl]; simp))
    omega
  | succ fuel ih =>
    intro k s hi hfnd hne hle
    have hlen : 0 < s.unchosen.length := List.length_pos_iff.mpr hne
    have hlt : idx k % s.unchosen.length < s.unchosen.length := Nat.mod_lt _ hlen
    unfold maxEntLoop
    rw [List.getElem?_eq_getElem hlt]
    obtain ⟨s₁, e₁, hi₁, hf₁, hdec⟩ := inv_chosen hnd htw h01 hi hfnd (List.getElem_mem hlt)
    simp only [e₁]
    obtain ⟨hi₂, hu₂⟩ := inv_reset hi₁ hf₁
    have hfree : (maxEntReset s₁).free = s₁.free := by unfold maxEntReset; split_ifs <;> rfl
    have htab : (maxEntReset s₁).table = s₁.table := by unfold maxEntReset; split_ifs <;> rfl
    generalize maxEntReset s₁ = s₂ at *
    have hgrand : s₂.residual [0, 1] = some [tot - total s₂.table] := by
      rw [hi₂.res _ h01]; simp [expected]
    by_cases hcond : (stop (s₂.residual [0, 1]) || decide (s₂.free.length ≤ 0)) = true
    · rw [if_pos hcond]
      have htot : total s₂.table = tot := by
        rw [Bool.or_eq_true] at hcond
        rcases hcond with hs | hs
        · rw [hgrand] at hs
          have := hstop _ hs
          omega
        · have hnil : s₂.free = [] := by simpa using hs
          exact total_of_dead hm hn hi₂.below hr hc (fun c => hi₂.dead c (by simp [hnil]))
      have hmeet := meets_of_total (truth := truth) hi₂.below hr hc htot
      rw [hadm _ hmeet]
      exact ⟨_, rfl, hi₂.below.nonneg, hmeet⟩
    · rw [if_neg hcond]
      have hne2 : s₂.free ≠ [] := by
        intro h
        apply hcond
        rw [h]; simp
      refine ih (k + 1) s₂ hi₂ (hfree ▸ hf₁) (fun h => hne2 (hu₂ h)) ?_
      rw [hfree, htab]
      omega

/-- **C15.**  With consistent non-negative margins and no fixed cells, for every sequence of random numbers the loop ends
within `total + rows·columns` iterations without raising, and the table it returns is non-negative and meets every
constrained margin.  `stop` is the early-exit test; it may fire or not, but only on a zero residual. -/
theorem C15_max_entropy {m n : Nat} (hm : 0 < m) (hn : 0 < n) (truth : Table m n) (margins residual : Margins)
    (constrained : List Ax) (hnd : constrained.Nodup) (htw : TwoWay constrained) (h01 : [0, 1] ∈ constrained)
    (row : Fin m → Int) (col : Fin n → Int) (tot : Int) (hsm : Stores margins row col tot)
    (hsr : Stores residual row col tot) (h0 : 0 ≤ tot) (hr0 : ∀ i, 0 ≤ row i) (hc0 : ∀ j, 0 ≤ col j)
    (hr : [1] ∈ constrained → ∑ i, row i = tot) (hc : [0] ∈ constrained → ∑ j, col j = tot)
    (stop : Option (List Int) → Bool) (hstop : ∀ x, stop (some [x]) = true → x = 0) (idx : Nat → Nat)
    (fuel : Nat) (hfuel : tot.toNat + m * n ≤ fuel) :
    ∃ t, maxEntropy truth margins residual constrained [] stop idx fuel = .done t ∧ Nonneg t ∧
      Meets constrained row col tot [] truth t := by
  unfold maxEntropy
  have hadm : ∀ t, Meets constrained row col tot [] truth t →
      tableAdmissible truth margins constrained [] t = some true := by
    intro t ht
    obtain ⟨b, hb, hiff⟩ := C20_table_admissible_iff margins row col tot hsm constrained htw [] truth t
    rw [hb, hiff.mpr ht]
  have hz : (maxEntInit truth [] residual).table = fun _ _ => 0 := by
    funext i j; simp [maxEntInit, fixedTable]
  have hfc : freeCells (m := m) (n := n) [] = allCells m n := by simp [freeCells, removeCells]
  have hlenc : (allCells m n).length = m * n := by
    simp [allCells, List.length_flatMap]
  have htot0 : total (fun _ _ => 0 : Table m n) = 0 := by simp [total]
  refine maxEntLoop_terminates hm hn hnd htw h01 hr hc truth _ hadm stop hstop idx fuel 0 _ ⟨⟨?_, ?_, ?_, ?_⟩, ?_, ?_, ?_, ?_⟩
    ?_ ?_ ?_
  · rw [hz]; intro _ _; exact le_refl 0
  · rw [hz]; intro _ i; simpa [rowSum] using hr0 i
  · rw [hz]; intro _ j; simpa [colSum] using hc0 j
  · rw [hz, htot0]; exact h0
  · rw [hz]; intro a ha
    rcases htw a ha with rfl | rfl | rfl
    · simp [maxEntInit, expected, hsr.cols, colSum]
    · simp [maxEntInit, expected, hsr.rows, rowSum]
    · simp [maxEntInit, expected, hsr.grand, total]
  · exact fun _ h => h
  · exact freeCells_nodup []
  · intro c hc; exact absurd ((mem_freeCells [] c).mpr (by simp)) hc
  · exact freeCells_nodup []
  · have : (⟨0, hm⟩, ⟨0, hn⟩) ∈ freeCells (m := m) (n := n) [] := (mem_freeCells _ _).mpr (by simp)
    exact List.ne_nil_of_mem this
  · rw [hz, htot0]
    simp only [maxEntInit, hfc, hlenc]
    push_cast
    omega

/-- A table returned by the loop meets all constraints, also with fixed cells (it then may fail to terminate). -/
theorem C15_returned_admissible {m n : Nat} (truth : Table m n) (margins residual : Margins)
    (constrained : List Ax) (htw : TwoWay constrained) (fixed : List (Cell m n))
    (row : Fin m → Int) (col : Fin n → Int) (tot : Int) (hsm : Stores margins row col tot)
    (stop : Option (List Int) → Bool) (idx : Nat → Nat) (fuel : Nat) (t : Table m n)
    (h : maxEntropy truth margins residual constrained fixed stop idx fuel = .done t) :
    Meets constrained row col tot fixed truth t := by
  have key : ∀ (fuel k : Nat) (s : MaxEnt m n),
      maxEntLoop (tableAdmissible truth margins constrained fixed) constrained stop idx fuel k s = .done t →
      tableAdmissible truth margins constrained fixed t = some true := by
    intro fuel
    induction fuel with
    | zero => intro k s h; simp [maxEntLoop] at h
    | succ fuel ih =>
      intro k s h
      unfold maxEntLoop at h
      split at h
      · simp at h
      · split at h
        · simp at h
        · simp only at h
          split at h
          · split at h
            · simp at h
            · rename_i hadm
              obtain rfl := LoopResult.done.inj h
              exact hadm
            · exact ih _ _ h
          · exact ih _ _ h
  obtain ⟨b, hb, hiff⟩ := C20_table_admissible_iff margins row col tot hsm constrained htw fixed truth t
  have := key fuel 0 _ h
  rw [hb] at this
  exact hiff.mp (Option.some.inj this)

example : ∃ t, maxEntropy (fun _ _ => 0 : Table 2 2)
    (fun a => if a = [0] then some [1, 2] else if a = [1] then some [2, 1] else if a = [0, 1] then some [3] else none)
    (fun a => if a = [0] then some [1, 2] else if a = [1] then some [2, 1] else if a = [0, 1] then some [3] else none)
    [[0], [0, 1], [1]] [] (fun _ => false) (fun k => k * k) 7 = .done t ∧ (t 0 0, t 0 1, t 1 0, t 1 1) = (1, 1, 0, 1) := by
  refine ⟨_, rfl, ?_⟩
  decide +kernel

end GeNSIT
