import Verif.Sim.Model
import Mathlib.Data.List.Induction

/-!
# `HarrisWilson.run` (C123): the simulated trajectory
-/

set_option linter.unusedVariables false

namespace GeNSIT

/-- One iteration of the loops of `run` (`gensit/physics_models/HarrisWilsonModel.py:444-456`, `462-477`): the normalised intensity is
computed at the current attractions, then `run_single` moves them. `flow w` is the intensity at attractions `w` (total one). -/
noncomputable def runStep (p : PotParams) (dt : ℝ) (I : ℕ) (flow : (ℕ → ℝ) → ℕ → ℕ → ℝ) (noise : ℕ → ℝ) (w : ℕ → ℝ) : ℕ → ℝ :=
  runSingle p dt I (flow w) noise w

/-- `run` without a time series (`HarrisWilsonModel.py:441-458`): `noise k` are the draws of the `k`-th iteration. -/
noncomputable def runFinal (p : PotParams) (dt : ℝ) (I : ℕ) (flow : (ℕ → ℝ) → ℕ → ℕ → ℝ) (noise : ℕ → ℕ → ℝ) (n : ℕ) (w : ℕ → ℝ) :
    ℕ → ℝ :=
  (List.range n).foldl (fun w k => runStep p dt I flow (noise k) w) w

/-- `run` with a time series (`HarrisWilsonModel.py:459-479`): every iteration appends to the list of states. -/
noncomputable def runSeries (p : PotParams) (dt : ℝ) (I : ℕ) (flow : (ℕ → ℝ) → ℕ → ℕ → ℝ) (noise : ℕ → ℕ → ℝ) (n : ℕ) (w : ℕ → ℝ) :
    List (ℕ → ℝ) :=
  (List.range n).foldl (fun ws k => ws ++ [runStep p dt I flow (noise k) (ws.getLastD w)]) [w]

/-- The parameters `run_single` reads (`HarrisWilsonModel.py:351-371`): a learned one from the list of free parameters, at its place in
`params_to_learn`; `none` for the `TypeError` when there is no such list or it is too short. -/
def stepParam (learned : List String) (hyper : String → ℝ) (free : Option (List ℝ)) (name : String) : Option ℝ :=
  if name ∈ learned then free.bind fun f => f[learned.idxOf name]? else some (hyper name)

/-- The parameters of a step inside `run`: `run` passes its `free_parameters` to the intensity only, `run_single` gets none
(`HarrisWilsonModel.py:451-456`, `470-475`). -/
def runParam (learned : List String) (hyper : String → ℝ) (name : String) : Option ℝ := stepParam learned hyper none name

/-! ## C123 -/

theorem runSeries_zero (p : PotParams) (dt : ℝ) (I : ℕ) (flow : (ℕ → ℝ) → ℕ → ℕ → ℝ) (noise : ℕ → ℕ → ℝ) (w : ℕ → ℝ) :
    runSeries p dt I flow noise 0 w = [w] := rfl

theorem runSeries_succ (p : PotParams) (dt : ℝ) (I : ℕ) (flow : (ℕ → ℝ) → ℕ → ℕ → ℝ) (noise : ℕ → ℕ → ℝ) (n : ℕ) (w : ℕ → ℝ) :
    runSeries p dt I flow noise (n + 1) w =
      runSeries p dt I flow noise n w ++ [runStep p dt I flow (noise n) ((runSeries p dt I flow noise n w).getLastD w)] := by
  unfold runSeries
  rw [List.range_succ, List.foldl_append]
  rfl

theorem runFinal_succ (p : PotParams) (dt : ℝ) (I : ℕ) (flow : (ℕ → ℝ) → ℕ → ℕ → ℝ) (noise : ℕ → ℕ → ℝ) (n : ℕ) (w : ℕ → ℝ) :
    runFinal p dt I flow noise (n + 1) w = runStep p dt I flow (noise n) (runFinal p dt I flow noise n w) := by
  unfold runFinal
  rw [List.range_succ, List.foldl_append]
  rfl

/-- The series consists of the final states of the shorter runs. -/
theorem runSeries_eq (p : PotParams) (dt : ℝ) (I : ℕ) (flow : (ℕ → ℝ) → ℕ → ℕ → ℝ) (noise : ℕ → ℕ → ℝ) (n : ℕ) (w : ℕ → ℝ) :
    runSeries p dt I flow noise n w = (List.range (n + 1)).map fun k => runFinal p dt I flow noise k w := by
  induction n with
  | zero => rfl
  | succ n ih =>
    have hl : (runSeries p dt I flow noise n w).getLastD w = runFinal p dt I flow noise n w := by
      rw [ih, List.range_succ, List.map_append]
      simp
    rw [runSeries_succ, hl, ih, List.range_succ (n := n + 1), List.map_append]
    congr 1
    simp [runFinal_succ]

/-- C123: a time series of `n` iterations has `n + 1` states: the initial one, then each the Euler step from the one before with the
intensity at that state and the draws of that iteration. -/
theorem C123_series (p : PotParams) (dt : ℝ) (I : ℕ) (flow : (ℕ → ℝ) → ℕ → ℕ → ℝ) (noise : ℕ → ℕ → ℝ) (n : ℕ) (w : ℕ → ℝ) :
    (runSeries p dt I flow noise n w).length = n + 1 ∧ (runSeries p dt I flow noise n w)[0]? = some w ∧
    ∀ k, k < n → ∃ u v, (runSeries p dt I flow noise n w)[k]? = some u ∧ (runSeries p dt I flow noise n w)[k + 1]? = some v ∧
      ∀ j, v j = u j + u j * (p.epsilon * ((∑ i ∈ Finset.range I, flow u i j) - p.kappa * u j + p.delta) +
        p.sigma / Real.sqrt (2 * Real.pi * dt) * noise k j) * dt := by
  rw [runSeries_eq]
  refine ⟨by simp, by simp [runFinal], fun k hk => ?_⟩
  refine ⟨runFinal p dt I flow noise k w, runFinal p dt I flow noise (k + 1) w, ?_, ?_, fun j => ?_⟩
  · rw [List.getElem?_map, List.getElem?_range (by omega)]; rfl
  · rw [List.getElem?_map, List.getElem?_range (by omega)]; rfl
  · rw [runFinal_succ]
    unfold runStep runSingle
    ring

/-- C123: the run that only returns the final state returns the last state of the series made with the same draws. -/
theorem C123_final (p : PotParams) (dt : ℝ) (I : ℕ) (flow : (ℕ → ℝ) → ℕ → ℕ → ℝ) (noise : ℕ → ℕ → ℝ) (n : ℕ) (w : ℕ → ℝ) :
    (runSeries p dt I flow noise n w).getLast? = some (runFinal p dt I flow noise n w) := by
  rw [runSeries_eq, List.range_succ]
  simp

/-- C123: a run can be interrupted and continued from its final state. -/
theorem C123_restart (p : PotParams) (dt : ℝ) (I : ℕ) (flow : (ℕ → ℝ) → ℕ → ℕ → ℝ) (noise : ℕ → ℕ → ℝ) (m n : ℕ) (w : ℕ → ℝ) :
    runFinal p dt I flow noise (m + n) w = runFinal p dt I flow (fun k => noise (m + k)) n (runFinal p dt I flow noise m w) := by
  induction n with
  | zero => rfl
  | succ n ih => rw [← Nat.add_assoc, runFinal_succ, runFinal_succ, ih]

/-- C123: a destination without attraction never gets any. -/
theorem C123_zero_absorbing (p : PotParams) (dt : ℝ) (I : ℕ) (flow : (ℕ → ℝ) → ℕ → ℕ → ℝ) (noise : ℕ → ℕ → ℝ) (n : ℕ) (w : ℕ → ℝ)
    (j : ℕ) (h : w j = 0) : runFinal p dt I flow noise n w j = 0 := by
  induction n with
  | zero => exact h
  | succ n ih => rw [runFinal_succ]; unfold runStep runSingle; rw [ih]; ring

/-- C123: without noise, a state from which a positive step is taken stays there for ever exactly if at every destination the
attraction is zero or demand plus `delta` equals `kappa` times the attraction. -/
theorem C123_equilibrium (p : PotParams) (dt : ℝ) (I : ℕ) (flow : (ℕ → ℝ) → ℕ → ℕ → ℝ) (w : ℕ → ℝ) (hdt : 0 < dt)
    (he : 0 < p.epsilon) :
    (∀ n, runFinal p dt I flow (fun _ _ => 0) n w = w) ↔
      ∀ j, w j = 0 ∨ (∑ i ∈ Finset.range I, flow w i j) + p.delta = p.kappa * w j := by
  constructor
  · intro h j
    have h1 := congrFun (h 1) j
    rw [runFinal_succ] at h1
    simp only [runFinal, List.range_zero, List.foldl_nil] at h1
    unfold runStep runSingle at h1
    by_cases hw : w j = 0
    · exact Or.inl hw
    · right
      have h2 : w j * (p.epsilon * ((∑ i ∈ Finset.range I, flow w i j) - p.kappa * w j + p.delta)) * dt = 0 := by linarith
      have h3 : (∑ i ∈ Finset.range I, flow w i j) - p.kappa * w j + p.delta = 0 := by
        by_contra hc
        exact mul_ne_zero (mul_ne_zero hw (mul_ne_zero he.ne' hc)) hdt.ne' h2
      linarith
  · intro h n
    induction n with
    | zero => rfl
    | succ n ih =>
      rw [runFinal_succ, ih]
      funext j
      unfold runStep runSingle
      rcases h j with h0 | h0
      · rw [h0]; ring
      · have : (∑ i ∈ Finset.range I, flow w i j) - p.kappa * w j + p.delta = 0 := by linarith
        rw [this]; ring

/-- C123: without noise, attractions stay positive as long as the step is small: `dt * epsilon * kappa * bound < 1` for a bound on the
attractions met so far. -/
theorem C123_positive (p : PotParams) (dt : ℝ) (I : ℕ) (flow : (ℕ → ℝ) → ℕ → ℕ → ℝ) (w : ℕ → ℝ) (n : ℕ) (bound : ℝ) (j : ℕ)
    (hdt : 0 ≤ dt) (he : 0 ≤ p.epsilon) (hk : 0 ≤ p.kappa) (hd : 0 ≤ p.delta) (hflow : ∀ u i, 0 ≤ flow u i j)
    (hsmall : dt * p.epsilon * p.kappa * bound < 1) (hw : 0 < w j)
    (hb : ∀ k, k < n → runFinal p dt I flow (fun _ _ => 0) k w j ≤ bound) : 0 < runFinal p dt I flow (fun _ _ => 0) n w j := by
  induction n with
  | zero => exact hw
  | succ n ih =>
    have hpos := ih fun k hk => hb k (by omega)
    have hle := hb n (by omega)
    rw [runFinal_succ]
    generalize hu : runFinal p dt I flow (fun _ _ => 0) n w = u at hpos hle
    unfold runStep runSingle
    have hs : 0 ≤ ∑ i ∈ Finset.range I, flow u i j := Finset.sum_nonneg fun i _ => hflow u i
    have h1 : dt * p.epsilon * p.kappa * u j ≤ dt * p.epsilon * p.kappa * bound :=
      mul_le_mul_of_nonneg_left hle (by positivity)
    have h2 : 0 ≤ dt * p.epsilon * ((∑ i ∈ Finset.range I, flow u i j) + p.delta) := by positivity
    have h3 : u j + u j * (p.epsilon * ((∑ i ∈ Finset.range I, flow u i j) - p.kappa * u j + p.delta) +
        p.sigma * 1 / Real.sqrt (2 * Real.pi * dt) * 0) * dt =
        u j * (1 + dt * p.epsilon * ((∑ i ∈ Finset.range I, flow u i j) + p.delta) - dt * p.epsilon * p.kappa * u j) := by ring
    rw [h3]
    exact mul_pos hpos (by linarith)

/-- C123: a single step reads a learned parameter from the free parameters at its place in the list, the others from the
hyperparameters. -/
theorem C123_parameters (learned : List String) (hl : learned.Nodup) (hyper : String → ℝ) (free : List ℝ)
    (hf : free.length = learned.length) (name : String) :
    (name ∉ learned → stepParam learned hyper (some free) name = some (hyper name)) ∧
    ∀ (k : ℕ) v, learned[k]? = some name → free[k]? = some v → stepParam learned hyper (some free) name = some v := by
  constructor
  · intro h
    unfold stepParam
    rw [if_neg h]
  · intro k v hk hv
    unfold stepParam
    rw [if_pos (List.mem_of_getElem? hk)]
    obtain ⟨hlt, e⟩ := List.getElem?_eq_some_iff.1 hk
    have : learned.idxOf name = k := by rw [← e]; exact hl.idxOf_getElem k hlt
    simp only [Option.bind_some, this, hv]

example : stepParam ["alpha", "kappa"] (fun _ => 5) (some [1, 2]) "kappa" = some 2 ∧
    stepParam ["alpha", "kappa"] (fun _ => 5) (some [1, 2]) "sigma" = some 5 := by
  simp [stepParam]

/-- C123: inside `run` a learned `kappa`, `delta`, `epsilon` or `sigma` cannot be read: the run fails, whatever value was passed for
it. -/
theorem C123_learned_in_run (learned : List String) (hyper : String → ℝ) (name : String) :
    runParam learned hyper name = none ↔ name ∈ learned := by
  unfold runParam stepParam
  by_cases h : name ∈ learned <;> simp [h]

/-- C123: so `run` does not accept every choice of learned parameters. -/
theorem C123_run_learned_false : ¬ ∀ (learned : List String) (hyper : String → ℝ) (name : String), ∃ v, runParam learned hyper name = some v := by
  intro h
  obtain ⟨v, hv⟩ := h ["sigma"] (fun _ => 0) "sigma"
  rw [(C123_learned_in_run ["sigma"] (fun _ => 0) "sigma").2 (by simp)] at hv
  simp at hv

/-- Non-vacuity of the noiseless statements: one destination, constant demand one, `kappa = 1`, `delta = 0`: attraction one is an
equilibrium, and one half grows. -/
example : (∀ n, runFinal ⟨1, 0, 0, 1, 0, 1⟩ 1 1 (fun _ _ _ => 1) (fun _ _ => 0) n (fun _ => 1) = fun _ => 1) ∧
    runFinal ⟨1, 0, 0, 1, 0, 1⟩ 1 1 (fun _ _ _ => 1) (fun _ _ => 0) 1 (fun _ => 1 / 2) 0 = 3 / 4 := by
  constructor
  · exact (C123_equilibrium ⟨1, 0, 0, 1, 0, 1⟩ 1 1 (fun _ _ _ => 1) (fun _ => 1) (by norm_num) (by norm_num)).2
      (fun j => Or.inr (by norm_num))
  · norm_num [runFinal, runStep, runSingle, List.range_succ]

end GeNSIT
