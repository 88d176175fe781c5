import Mathlib.Data.List.Nodup
import Mathlib.Algebra.Order.Ring.Nat

/-!
# C154: the stopping times a run uses

`load_stopping_times`, `import_stopping_times`, `export_stopping_times` (`gensit/learning_models/HarrisWilsonModel_MCMC.py:71-118`) and the
indices with which the samplers look stopping times up (`gensit/experiments.py:1407-1464, 1648-1707`, `HarrisWilsonModel_MCMC.py:543-552`).
-/

namespace GeNSIT

/-! ## Model -/

/-- The files of the `stopping_times` folder: their name and the numbers in them. -/
abbrev StopDisk := List Char → Option (List ℕ)

/-- What matters of the settings: `training.N`, `mcmc.parameters.theta_steps`, `k_power` (in tenths), the seed and the optional file name. -/
structure StopCfg where
  iterations : ℕ
  thetaSteps : Option ℕ
  power : ℕ
  seed : Option ℕ
  fileName : Option (List Char)

/-- The number of stopping times asked for (lines 73-75); an absent `theta_steps` counts as 1. -/
def StopCfg.total (c : StopCfg) : ℕ := c.iterations * c.thetaSteps.getD 1

/-- The file looked up (line 99). -/
def StopCfg.path (c : StopCfg) : List Char :=
  c.fileName.getD ("stopping_times_N_".toList ++ (Nat.repr c.total).toList ++ ".txt".toList)

/-- The only exception: `len` of the zero-dimensional array `np.loadtxt` returns for a file with one number (lines 102-106). -/
inductive StopErr
  | lenOfScalar
deriving DecidableEq

/-- `self.k_power`: the constant 1.1; the setting is commented out (line 152). -/
def codePower : ℕ := 11

/-- `generate_stopping_times` followed by `export_stopping_times` (lines 81-87, 115-118).  `gen power seed n` are the numbers drawn. -/
def makeStopping (gen : ℕ → Option ℕ → ℕ → List ℕ) (c : StopCfg) (d : StopDisk) : List ℕ × StopDisk :=
  let ts := gen codePower c.seed c.total
  (ts.take c.total, fun p => if p = c.path then some ts else d p)

/-- `load_stopping_times` (lines 71-91): the file if it has exactly the number needed, otherwise new ones, which are written to that
file. -/
def loadStopping (gen : ℕ → Option ℕ → ℕ → List ℕ) (c : StopCfg) (d : StopDisk) : Except StopErr (List ℕ × StopDisk) :=
  match d c.path with
  | none => .ok (makeStopping gen c d)
  | some ts =>
    if ts.length = 1 then .error .lenOfScalar
    else if ts.length = c.total then .ok (ts.take c.total, d)
    else .ok (makeStopping gen c d)

/-- The indices handed to `z_inverse` in a run of `n` iterations with `m` parameter steps each: 0 before the loop
(`experiments.py:1407-1410, 1648-1651`), then the number of the iteration in each of its parameter steps (lines 1455-1464, 1698-1707). -/
def usedIndices (n m : ℕ) : List ℕ := 0 :: (List.range n).flatMap fun i => List.replicate m i

/-! ## C154 -/

/-- The generator returns as many numbers as asked for. -/
def Spec.GeneratesAll (gen : ℕ → Option ℕ → ℕ → List ℕ) : Prop := ∀ k s n, (gen k s n).length = n

/-- **C154.** A run that gets its stopping times gets exactly as many as it asked for. -/
theorem C154_count (gen : ℕ → Option ℕ → ℕ → List ℕ) (hg : Spec.GeneratesAll gen) (c : StopCfg) (d d' : StopDisk) (ts : List ℕ)
    (h : loadStopping gen c d = .ok (ts, d')) : ts.length = c.total := by
  unfold loadStopping makeStopping at h
  split at h
  · simp only [Except.ok.injEq, Prod.mk.injEq] at h
    obtain ⟨rfl, _⟩ := h
    simp [hg codePower c.seed c.total]
  · split at h
    · simp at h
    · split at h
      · next hl =>
        simp only [Except.ok.injEq, Prod.mk.injEq] at h
        obtain ⟨rfl, _⟩ := h
        simp [hl]
      · simp only [Except.ok.injEq, Prod.mk.injEq] at h
        obtain ⟨rfl, _⟩ := h
        simp [hg codePower c.seed c.total]

/-- **C154 (reproducibility).** Once a run has its stopping times, every later run that looks up the same file and needs the same number, at
least two, gets the same ones, whatever its power and seed. -/
theorem C154_reload (gen : ℕ → Option ℕ → ℕ → List ℕ) (hg : Spec.GeneratesAll gen) (c c' : StopCfg) (d d' : StopDisk) (ts : List ℕ)
    (h : loadStopping gen c d = .ok (ts, d')) (hp : c'.path = c.path) (ht : c'.total = c.total) (h2 : 2 ≤ c.total) :
    loadStopping gen c' d' = .ok (ts, d') := by
  have key : d' c.path = some ts := by
    unfold loadStopping makeStopping at h
    split at h
    · simp only [Except.ok.injEq, Prod.mk.injEq] at h
      obtain ⟨rfl, rfl⟩ := h
      simp [List.take_of_length_le (hg codePower c.seed c.total).le]
    · next ts0 h0 =>
      split at h
      · simp at h
      · split at h
        · next hl =>
          simp only [Except.ok.injEq, Prod.mk.injEq] at h
          obtain ⟨rfl, rfl⟩ := h
          rw [h0, List.take_of_length_le hl.le]
        · simp only [Except.ok.injEq, Prod.mk.injEq] at h
          obtain ⟨rfl, rfl⟩ := h
          simp [List.take_of_length_le (hg codePower c.seed c.total).le]
  have hl := C154_count gen hg c d d' ts h
  unfold loadStopping
  rw [hp, key, ht]
  simp only
  rw [if_neg (by omega), if_pos hl, List.take_of_length_le hl.le]

/-- **C154 (fresh numbers).** When the file is absent the stopping times are those drawn with the seed of the run (and the constant power), and only that file
is written. -/
theorem C154_fresh_partial (gen : ℕ → Option ℕ → ℕ → List ℕ) (hg : Spec.GeneratesAll gen) (c : StopCfg) (d : StopDisk) (h : d c.path = none) :
    ∃ d', loadStopping gen c d = .ok (gen codePower c.seed c.total, d') ∧ d' c.path = some (gen codePower c.seed c.total) ∧
      ∀ p, p ≠ c.path → d' p = d p := by
  refine ⟨fun p => if p = c.path then some (gen codePower c.seed c.total) else d p, ?_, ?_, ?_⟩
  · unfold loadStopping makeStopping
    rw [h]
    simp only
    rw [List.take_of_length_le (hg codePower c.seed c.total).le]
  · simp
  · intro p hp
    simp [hp]

/-- A generator for the examples: the power and the seed are visible in the numbers. -/
def demoGen (k : ℕ) (s : Option ℕ) (n : ℕ) : List ℕ := List.replicate n (k + 100 * s.getD 0)

theorem demoGen_all : Spec.GeneratesAll demoGen := fun k s n => by simp [demoGen]

def demoCfg : StopCfg := { iterations := 2, thetaSteps := some 1, power := 1, seed := some 1, fileName := none }

example : ∃ d', loadStopping demoGen demoCfg (fun _ => none) = .ok ([111, 111], d') ∧
    loadStopping demoGen { demoCfg with seed := some 3 } d' = .ok ([111, 111], d') := by
  obtain ⟨d', h1, _, _⟩ := C154_fresh_partial demoGen demoGen_all demoCfg (fun _ => none) rfl
  exact ⟨d', h1, C154_reload demoGen demoGen_all demoCfg _ _ d' _ h1 rfl rfl (by decide)⟩

/-- **C154 is false**: a run does not always use stopping times drawn with its own seed; the name of the file does not tell them
apart, and a file written by an earlier run with another seed is used. -/
theorem C154_own_seed_false :
    ¬ ∀ (gen : ℕ → Option ℕ → ℕ → List ℕ) (c c' : StopCfg) (d' : StopDisk) (ts ts' : List ℕ) (d'' : StopDisk), Spec.GeneratesAll gen →
      c.fileName = none → c'.fileName = none → loadStopping gen c (fun _ => none) = .ok (ts, d') →
      loadStopping gen c' d' = .ok (ts', d'') → ts' = gen codePower c'.seed c'.total := by
  intro h
  obtain ⟨d', h1, _, _⟩ := C154_fresh_partial demoGen demoGen_all demoCfg (fun _ => none) rfl
  have h2 := C154_reload demoGen demoGen_all demoCfg { demoCfg with seed := some 3 } _ d' _ h1 rfl rfl (by decide)
  have := h demoGen demoCfg { demoCfg with seed := some 3 } d' _ _ d' demoGen_all rfl rfl h1 h2
  revert this
  decide

/-- **C154 is false**: the power in the settings is not used. -/
theorem C154_power_false :
    ¬ ∀ (gen : ℕ → Option ℕ → ℕ → List ℕ) (c : StopCfg) (d' : StopDisk) (ts : List ℕ), Spec.GeneratesAll gen →
      loadStopping gen c (fun _ => none) = .ok (ts, d') → ts = gen c.power c.seed c.total := by
  intro h
  obtain ⟨d', h1, _, _⟩ := C154_fresh_partial demoGen demoGen_all demoCfg (fun _ => none) rfl
  have := h demoGen demoCfg d' _ demoGen_all h1
  revert this
  decide

/-- **C154 is false**: a run that needs a single stopping time cannot be repeated; the second one raises. -/
theorem C154_repeat_false : ∃ (c : StopCfg) (ts : List ℕ) (d' : StopDisk), loadStopping demoGen c (fun _ => none) = .ok (ts, d') ∧
    loadStopping demoGen c d' = .error .lenOfScalar := by
  refine ⟨{ demoCfg with iterations := 1 }, [111], _, rfl, ?_⟩
  unfold loadStopping
  simp only [if_true]
  rfl

/-- **C154 is false**: a file of stopping times named in the settings that has more of them than the run needs is not used but overwritten. -/
theorem C154_user_file_false : ∃ (c : StopCfg) (name : List Char) (d : StopDisk) (mine : List ℕ) (ts : List ℕ) (d' : StopDisk),
    c.fileName = some name ∧ d name = some mine ∧ c.total ≤ mine.length ∧ loadStopping demoGen c d = .ok (ts, d') ∧
      ts ≠ mine.take c.total ∧ d' name ≠ some mine := by
  refine ⟨{ demoCfg with fileName := some ['s'] }, ['s'], fun p => if p = ['s'] then some [1, 2, 3] else none, [1, 2, 3], [111, 111],
    fun p => if p = ['s'] then some [111, 111] else if p = ['s'] then some [1, 2, 3] else none, rfl, by simp, by decide, rfl, by decide, ?_⟩
  simp

/-! ### How the stopping times are used -/

theorem mem_usedIndices (n m k : ℕ) : k ∈ usedIndices n m ↔ k = 0 ∨ (k < n ∧ 0 < m) := by
  unfold usedIndices
  simp only [List.mem_cons, List.mem_flatMap, List.mem_range, List.mem_replicate]
  constructor
  · rintro (h | ⟨i, hi, hm, rfl⟩)
    · exact Or.inl h
    · exact Or.inr ⟨hi, by omega⟩
  · rintro (h | ⟨h1, h2⟩)
    · exact Or.inl h
    · exact Or.inr ⟨k, h1, by omega, rfl⟩

/-- **C154.** Every index the sampler uses is within the stopping times loaded for that run. -/
theorem C154_in_range (gen : ℕ → Option ℕ → ℕ → List ℕ) (hg : Spec.GeneratesAll gen) (c : StopCfg) (d d' : StopDisk) (ts : List ℕ)
    (h : loadStopping gen c d = .ok (ts, d')) (h0 : 0 < c.total) (k : ℕ) (hk : k ∈ usedIndices c.iterations (c.thetaSteps.getD 1)) :
    k < ts.length := by
  rw [C154_count gen hg c d d' ts h]
  rcases (mem_usedIndices _ _ _).1 hk with rfl | ⟨h1, h2⟩
  · exact h0
  · refine lt_of_lt_of_le h1 ?_
    unfold StopCfg.total
    exact Nat.le_mul_of_pos_right _ h2

/-- **C154 (exact use).** Within the loop the stopping time of iteration `i` is used once for each parameter step of that iteration, and those
beyond the number of iterations are never used. -/
theorem C154_use (n m i : ℕ) : (usedIndices n m).tail.count i = if i < n then m else 0 := by
  unfold usedIndices
  simp only [List.tail_cons]
  induction n with
  | zero => simp
  | succ n ih =>
    rw [List.range_succ, List.flatMap_append, List.count_append, ih]
    simp only [List.flatMap_cons, List.flatMap_nil, List.append_nil, List.count_replicate]
    by_cases h1 : i < n
    · have : ¬ n = i := by omega
      simp [h1, this, Nat.lt_succ_of_lt h1]
    · by_cases h2 : n = i
      · subst h2; simp
      · have : ¬ i < n + 1 := by omega
        simp [h1, h2, this]

/-- **C154.** With one parameter step per iteration, no two estimates made in the loop share a stopping time. -/
theorem C154_independent_partial (n : ℕ) : (usedIndices n 1).tail.Nodup := by
  rw [List.nodup_iff_count_le_one]
  intro i
  rw [C154_use]
  split <;> omega

/-- **C154 is false**: the estimates of 1/z of a run do not each have their own stopping time, with any number of iterations and parameter
steps (the one before the loop shares the first). -/
theorem C154_independent_false (n m : ℕ) (hn : 0 < n) (hm : 0 < m) : ¬ (usedIndices n m).Nodup := by
  unfold usedIndices
  rw [List.nodup_cons]
  rintro ⟨h, _⟩
  refine h ?_
  simp only [List.mem_flatMap, List.mem_range, List.mem_replicate]
  exact ⟨0, hn, by omega, rfl⟩

example : usedIndices 3 2 = [0, 0, 0, 1, 1, 2, 2] := by decide

end GeNSIT
