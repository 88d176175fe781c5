import Verif.Table.Props
import Mathlib.Analysis.SpecialFunctions.Exp

/-!
# Property theorem C171 (validation of samples while a network is trained)

`validate_samples` (`experiments.py:812-850`), called after every training step by `NonJointTableSIM_NN.run` (`:2432-2433`) and
`JointTableSIM_NN.run` (`:2707-2708`) when `validate_samples` is set; `model_update_and_export` and `write_data` (`:652-760`) as far
as attractions and tables are concerned.
-/

namespace GeNSIT

open Spec

/-- A stored row: log destination attractions and table, which these experiments write together (`experiments.py:736-749`,
`static/global_variables.py:486-487`). -/
structure SampleRow (m n : Nat) where
  x : Fin n → ℝ
  table : Table m n

/-- What the check needs to know, and the writing schedule. -/
structure ValidateCfg (m n : Nat) where
  truth : Table m n
  margins : Margins
  constrained : List Ax
  fixed : List (Cell m n)
  writeStart : Nat
  writeEvery : Nat
  batchSize : Nat
  dataSize : Nat

open Classical in
/-- `validate_samples` (`experiments.py:812-850`) on the rows stored so far, for the experiments that call it (their outputs have
neither `r2` nor `sign`): the last row is looked at, and with no row yet `[-1]` raises, once in the assertion and once more in
the handler. -/
noncomputable def validateRows {m n : Nat} (c : ValidateCfg m n) (rows : List (SampleRow m n)) : Bool :=
  match rows.getLast? with
  | none => false
  | some r => decide (|(∑ j, Real.exp (r.x j)) - 1| ≤ 1 / 1000) &&
      decide (tableAdmissible c.truth c.margins c.constrained c.fixed r.table = some true)

/-- One training step `t`: time advances when a batch ends (`experiments.py:662-664`), the row is written on schedule (`:714`), and then
the stored samples are validated; `none` = exception. -/
noncomputable def validatedStep {m n : Nat} (c : ValidateCfg m n) (t : Nat) (row : SampleRow m n) (s : Nat × List (SampleRow m n)) :
    Option (Nat × List (SampleRow m n)) :=
  let s' := if t % c.batchSize = 0 ∨ t + 1 = c.dataSize then
      (s.1 + 1, if c.writeStart ≤ s.1 + 1 ∧ (s.1 + 1) % c.writeEvery = 0 then s.2 ++ [row] else s.2)
    else s
  if validateRows c s'.2 then some s' else none

/-- A validated epoch from step `t` on. -/
noncomputable def validatedRun {m n : Nat} (c : ValidateCfg m n) : Nat → List (SampleRow m n) → Nat × List (SampleRow m n) →
    Option (Nat × List (SampleRow m n))
  | _, [], s => some s
  | t, row :: rest, s => (validatedStep c t row s).bind (validatedRun c (t + 1) rest)

/-- Specification: a valid row, in terms of the constraints. -/
structure Spec.ValidRow {m n : Nat} (c : ValidateCfg m n) (row : Fin m → Int) (col : Fin n → Int) (tot : Int) (r : SampleRow m n) :
    Prop where
  normalised : |(∑ j, Real.exp (r.x j)) - 1| ≤ 1 / 1000
  table : Meets c.constrained row col tot c.fixed c.truth r.table

variable {m n : Nat} (c : ValidateCfg m n) (row : Fin m → Int) (col : Fin n → Int) (tot : Int)

theorem validateRows_iff (hm : Stores c.margins row col tot) (hc : TwoWay c.constrained) (rows : List (SampleRow m n)) :
    validateRows c rows = true ↔ ∃ r, rows.getLast? = some r ∧ Spec.ValidRow c row col tot r := by
  unfold validateRows
  cases h : rows.getLast? with
  | none => simp
  | some r =>
    obtain ⟨b, hb, hiff⟩ := C20_table_admissible_iff c.margins row col tot hm c.constrained hc c.fixed c.truth r.table
    simp only [Bool.and_eq_true, decide_eq_true_eq, hb, Option.some.injEq]
    constructor
    · rintro ⟨h1, h2⟩
      exact ⟨r, rfl, h1, hiff.1 h2⟩
    · rintro ⟨r', hr, h1, h2⟩
      subst hr
      exact ⟨h1, hiff.2 h2⟩

/-- **C171.**  The validation accepts what is stored exactly when something is stored and the last row is valid. -/
theorem C171_accepts_iff (hm : Stores c.margins row col tot) (hc : TwoWay c.constrained) (rows : List (SampleRow m n)) :
    validateRows c rows = true ↔ ∃ earlier r, rows = earlier ++ [r] ∧ Spec.ValidRow c row col tot r := by
  rw [validateRows_iff c row col tot hm hc]
  constructor
  · rintro ⟨r, hr, hv⟩
    obtain ⟨ys, hys⟩ := List.getLast?_eq_some_iff.1 hr
    exact ⟨ys, r, hys, hv⟩
  · rintro ⟨e, r, rfl, hv⟩
    exact ⟨r, by simp, hv⟩

theorem validatedRun_valid (hm : Stores c.margins row col tot) (hc : TwoWay c.constrained) :
    ∀ (samples : List (SampleRow m n)) (t : Nat) (s s' : Nat × List (SampleRow m n)),
      (∀ r ∈ s.2, Spec.ValidRow c row col tot r) → validatedRun c t samples s = some s' →
      ∀ r ∈ s'.2, Spec.ValidRow c row col tot r := by
  intro samples
  induction samples with
  | nil =>
    intro t s s' hs h
    simp only [validatedRun, Option.some.injEq] at h
    exact h ▸ hs
  | cons x rest ih =>
    intro t s s' hs h
    simp only [validatedRun] at h
    cases hst : validatedStep c t x s with
    | none => rw [hst] at h; cases h
    | some s₁ =>
      rw [hst] at h
      refine ih (t + 1) s₁ s' ?_ h
      have hst' : ∃ s'' : Nat × List (SampleRow m n), s'' = (if t % c.batchSize = 0 ∨ t + 1 = c.dataSize then
          (s.1 + 1, if c.writeStart ≤ s.1 + 1 ∧ (s.1 + 1) % c.writeEvery = 0 then s.2 ++ [x] else s.2) else s) ∧
          validateRows c s''.2 = true ∧ s₁ = s'' := by
        refine ⟨_, rfl, ?_⟩
        unfold validatedStep at hst
        by_cases hv : validateRows c (if t % c.batchSize = 0 ∨ t + 1 = c.dataSize then
          (s.1 + 1, if c.writeStart ≤ s.1 + 1 ∧ (s.1 + 1) % c.writeEvery = 0 then s.2 ++ [x] else s.2) else s).2 = true
        · rw [if_pos hv] at hst
          exact ⟨hv, (Option.some.inj hst).symm⟩
        · rw [if_neg hv] at hst
          cases hst
      obtain ⟨s'', hs'', hv, rfl⟩ := hst'
      obtain ⟨e, r, he, hr⟩ := (C171_accepts_iff c row col tot hm hc _).1 hv
      by_cases h1 : t % c.batchSize = 0 ∨ t + 1 = c.dataSize
      · by_cases h2 : c.writeStart ≤ s.1 + 1 ∧ (s.1 + 1) % c.writeEvery = 0
        · rw [if_pos h1, if_pos h2] at hs''
          subst hs''
          obtain ⟨h3, h4⟩ := List.append_inj' he rfl
          intro y hy
          rcases List.mem_append.1 hy with hy | hy
          · exact hs y hy
          · simp only [List.mem_singleton] at hy
            subst hy
            obtain rfl : y = r := by simpa using h4
            exact hr
        · rw [if_pos h1, if_neg h2] at hs''
          subst hs''
          exact hs
      · rw [if_neg h1] at hs''
        subst hs''
        exact hs

/-- Every row stored by a validated epoch that completes is valid, for every schedule of writing and batches. -/
theorem C171_completed (hm : Stores c.margins row col tot) (hc : TwoWay c.constrained) (samples : List (SampleRow m n))
    (time : Nat) (rows : List (SampleRow m n)) (h : validatedRun c 0 samples (0, []) = some (time, rows)) :
    ∀ r ∈ rows, Spec.ValidRow c row col tot r :=
  validatedRun_valid c row col tot hm hc samples 0 (0, []) (time, rows) (by simp) h

/-- A validated epoch in which every sample is written: it completes exactly when every written sample is valid. -/
theorem C171_complete_iff_partial (hm : Stores c.margins row col tot) (hc : TwoWay c.constrained) (hs : c.writeStart ≤ 1)
    (he : c.writeEvery = 1) (hb : c.batchSize = 1) (samples : List (SampleRow m n)) :
    (validatedRun c 0 samples (0, [])).isSome = true ↔ ∀ r ∈ samples, Spec.ValidRow c row col tot r := by
  suffices H : ∀ (samples : List (SampleRow m n)) (t k : Nat) (rows : List (SampleRow m n)),
      (validatedRun c t samples (k, rows)).isSome = true ↔ ∀ r ∈ samples, Spec.ValidRow c row col tot r from H samples 0 0 []
  intro samples
  induction samples with
  | nil => intro t k rows; simp [validatedRun]
  | cons x rest ih =>
    intro t k rows
    have hw : c.writeStart ≤ k + 1 ∧ (k + 1) % c.writeEvery = 0 := ⟨by omega, by rw [he]; exact Nat.mod_one _⟩
    have hcond : t % c.batchSize = 0 ∨ t + 1 = c.dataSize := Or.inl (by rw [hb]; exact Nat.mod_one _)
    have hstep : validatedStep c t x (k, rows) = if validateRows c (rows ++ [x]) then some (k + 1, rows ++ [x]) else none := by
      unfold validatedStep
      simp only [if_pos hcond, if_pos hw]
    simp only [validatedRun, hstep]
    have hval := C171_accepts_iff c row col tot hm hc (rows ++ [x])
    by_cases hx : Spec.ValidRow c row col tot x
    · rw [if_pos (hval.2 ⟨rows, x, rfl, hx⟩)]
      simp only [Option.bind_some, ih]
      simp [hx]
    · have : validateRows c (rows ++ [x]) = false := by
        rw [Bool.eq_false_iff]
        intro hv
        obtain ⟨e, r, he', hr⟩ := hval.1 hv
        obtain ⟨_, h4⟩ := List.append_inj' he' rfl
        obtain rfl : x = r := by simpa using h4
        exact hx hr
      rw [this]
      simp [hx]

/-- Whenever the first sample is not written (`write_start` or `write_every` above one), the run is aborted after its first step, whatever
the samples are. -/
theorem C171_late_start (x : SampleRow m n) (rest : List (SampleRow m n)) (h : 1 < c.writeStart ∨ 1 < c.writeEvery) :
    validatedRun c 0 (x :: rest) (0, []) = none := by
  have hw : ¬ (c.writeStart ≤ 0 + 1 ∧ (0 + 1) % c.writeEvery = 0) := by
    rintro ⟨h1, h2⟩
    rcases h with h | h
    · omega
    · rw [Nat.mod_eq_of_lt (by omega)] at h2
      omega
  have h0 : (0 % c.batchSize = 0 ∨ 0 + 1 = c.dataSize) := Or.inl (Nat.zero_mod _)
  have : validatedStep c 0 x (0, []) = none := by
    unfold validatedStep
    simp only [if_pos h0, if_neg hw]
    simp [validateRows]
  simp only [validatedRun, this, Option.bind_none]

/-- "A run whose samples are all valid passes the validation" is false. -/
theorem C171_false : ∃ (c : ValidateCfg 1 1) (row col : Fin 1 → Int) (tot : Int) (r : SampleRow 1 1),
    Stores c.margins row col tot ∧ TwoWay c.constrained ∧ Spec.ValidRow c row col tot r ∧ validatedRun c 0 [r] (0, []) = none := by
  refine ⟨⟨fun _ _ => 0, fun a => if a = [0, 1] then some [3] else some [3], [[0, 1]], [], 1, 2, 1, 1⟩, fun _ => 3, fun _ => 3, 3,
    ⟨fun _ => 0, fun _ _ => 3⟩, ⟨rfl, rfl, rfl⟩, ?_, ⟨by simp, ⟨?_, ?_, ?_, ?_⟩⟩, ?_⟩
  · intro a ha; simp at ha; simp [ha]
  · intro h; simp at h
  · intro h; simp at h
  · intro _; simp [total]
  · intro i j h; simp at h
  · exact C171_late_start _ _ [] (Or.inr (by decide))

/-- A completed run, with two valid samples. -/
example : (validatedRun (⟨fun _ _ => 0, fun a => if a = [0, 1] then some [3] else some [3], [[0, 1]], [], 1, 1, 1, 2⟩ : ValidateCfg 1 1) 0
    [⟨fun _ => 0, fun _ _ => 3⟩, ⟨fun _ => 0, fun _ _ => 3⟩] (0, [])).isSome = true := by
  rw [C171_complete_iff_partial _ (fun _ => 3) (fun _ => 3) 3 ⟨rfl, rfl, rfl⟩ (by intro a ha; simp at ha; simp [ha]) (le_refl 1) rfl rfl]
  intro r hr
  have : r = ⟨fun _ => 0, fun _ _ => 3⟩ := by simpa using hr
  subst this
  refine ⟨by simp, ⟨?_, ?_, ?_, ?_⟩⟩
  · intro h; simp at h
  · intro h; simp at h
  · intro _; simp [total]
  · intro i j h; simp at h

end GeNSIT
