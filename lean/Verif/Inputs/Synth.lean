import Verif.Inputs.Lemmas
import Mathlib.Algebra.Order.Field.Rat
import Mathlib.Tactic.Positivity
import Mathlib.Algebra.BigOperators.Ring.List

/-!
# Generation of synthetic data (C120)

`Inputs.generate_synthetic_data`, `sde_solver_in_sequence`, `sde_potential_in_sequence` (`gensit/inputs.py:613-885`) and
`random_vector` (`gensit/utils/probability_utils.py:302-342`). The draws of the random generator, the trajectories of the simulated
model, the optima and the multinomial sample are arguments: the theorems hold for every outcome. Numbers are exact; `none` stands
for the `nan` of a division by zero. Not modelled: the simulation itself (C67–C70 and C93 treat its steps), writing the files, seeds.
-/

set_option linter.unusedSimpArgs false
set_option linter.unusedVariables false

namespace GeNSIT

/-- What is raised. -/
inductive SynthError where
  | typeError | valueError | keyError | runtimeError
deriving DecidableEq, Repr

/-- `random_vector`: the vector drawn, or what is raised. `np.random.uniform` has no argument `dtype`, so the uniform branch raises in
any case (lines 317-325). -/
def randomVector (distribution : String) (lower upper : ℚ) (draws : List ℚ) : Except SynthError (List ℚ) :=
  if distribution = "uniform" then (if lower > upper then .error .valueError else .error .typeError)
  else if distribution = "normal" ∨ distribution = "poisson" then .ok draws
  else .error .valueError

/-- Lines 636-646: absolute values, divided by their sum. -/
def synthShares (draws : List ℚ) : Option (List ℚ) :=
  let xs := draws.map abs
  if xs.sum = 0 then none else some (xs.map (· / xs.sum))

/-- Entry of a matrix; zero outside of it. -/
def matAt (M : List (List ℚ)) (i j : Nat) : ℚ := ((M[i]?.bind fun r => r[j]?)).getD 0

/-- The matrix of shape `(n, m)` with the given entries. -/
def buildMat (n m : Nat) (f : Nat → Nat → ℚ) : List (List ℚ) := (List.range n).map fun i => (List.range m).map fun j => f i j

/-- Lines 649-657: absolute values of the draws, plus the transpose if the matrix is square. -/
def costRaw (n m : Nat) (draws : Nat → Nat → ℚ) : List (List ℚ) :=
  if n = m then buildMat n m fun i j => |draws i j| + |draws j i| else buildMat n m fun i j => |draws i j|

/-- `cost_matrix.max()`; zero for a matrix without entries (the code raises). -/
def matMax (M : List (List ℚ)) : ℚ := M.flatten.foldr max 0

/-- Lines 661-662: divided by the maximum. -/
def costMatrix (n m : Nat) (draws : Nat → Nat → ℚ) : Option (List (List ℚ)) :=
  let M := costRaw n m draws
  if matMax M = 0 then none else some (M.map fun r => r.map (· / matMax M))

/-- Lines 658, 665: the row sums before that division, divided by their sum. -/
def totalCost (n m : Nat) (draws : Nat → Nat → ℚ) : Option (List ℚ) :=
  let t := (costRaw n m draws).map List.sum
  if t.sum = 0 then none else some (t.map (· / t.sum))

/-- `xs[-k:]` for `k` an integer given by the configuration: with `k = 0` it is all of `xs`. -/
def lastK {α : Type} (k : Nat) (xs : List α) : List α := if k = 0 then xs else xs.drop (xs.length - k)

/-- `torch.stack(samples).mean(dim = 0)` (line 841): the mean over the runs, entry by entry, of trajectories with `t` times and `n`
destinations. -/
def meanSeries (t n : Nat) (runs : List (List (List ℚ))) : List (List ℚ) :=
  buildMat t n fun s j => (runs.map fun r => matAt r s j).sum / runs.length

/-- `X.T` of a matrix with `n` columns. -/
def transposeMat (n : Nat) (X : List (List ℚ)) : List (List ℚ) := buildMat n X.length fun j s => matAt X s j

/-- `destination_attraction_ts[-data_time_steps:].T` (line 711) for the series made by the solver, which has one row per time. -/
def solverAttraction (t n : Nat) (runs : List (List (List ℚ))) (steps : Nat) : List (List ℚ) :=
  transposeMat n (lastK steps (meanSeries t n runs))

/-- Position of a smallest entry, the first one (`np.argmin`). -/
def argMin : List ℚ → Nat
  | [] => 0
  | [_] => 0
  | x :: y :: r => if x ≤ (y :: r).foldl min y then 0 else argMin (y :: r) + 1

/-- `sde_potential_in_sequence` (lines 843-885): one optimum `xs i` per start, and of these the one with the smallest potential;
`expv` is the exponential. -/
def potentialAttraction (expv : ℚ → ℚ) (xs : List (List ℚ)) (potentials : List ℚ) : List ℚ :=
  (xs[argMin potentials]?.getD []).map expv

/-- `destination_attraction_ts[-data_time_steps:].T` (line 711) for the vector made by `sde_potential_in_sequence`: a vector has one
axis, the destinations, and this is the axis that is cut. -/
def potentialStored (expv : ℚ → ℚ) (xs : List (List ℚ)) (potentials : List ℚ) (steps : Nat) : List ℚ :=
  lastK steps (potentialAttraction expv xs potentials)

/-- Lines 732-748: the sample of the multinomial, reshaped to all dimensions, including the time. -/
def synthTable (dims : List (String × Nat)) (counts : List Nat) : Except SynthError (List Nat × List Nat) :=
  if (dims.map (·.2)).prod = counts.length then .ok (dims.map (·.2), counts) else .error .runtimeError

/-- The dimension names of `TRAIN_SCHEMA[key]`, if the key is there and has dimensions. -/
def trainDims (key : String) : Option (List String) :=
  match trainSchema.find? (fun f => f.name = key) with
  | some f => if f.dims = [] then none else some f.dims
  | none => none

/-- Lines 757-759: the name of the data set: `key` is what the loop of line 633 left behind, the last key of `inputs.data`. -/
def synthName (dims : List (String × Nat)) (keys : List String) (total : Nat) : Except SynthError (List Nat × Nat) :=
  match keys.getLast? with
  | none => .error .keyError
  | some key =>
    match trainDims key with
    | none => .error .keyError
    | some ds =>
      match ds.mapM (fun d => dims.lookup d) with
      | none => .error .keyError
      | some sizes => .ok (sizes, total)

/-! ## Lemmas -/

theorem matAt_build {n m i j : Nat} {f : Nat → Nat → ℚ} (hi : i < n) (hj : j < m) : matAt (buildMat n m f) i j = f i j := by
  unfold matAt buildMat
  simp [hi, hj]

theorem buildMat_shape (n m : Nat) (f : Nat → Nat → ℚ) :
    (buildMat n m f).length = n ∧ ∀ r ∈ buildMat n m f, r.length = m := by
  unfold buildMat
  refine ⟨by simp, fun r hr => ?_⟩
  obtain ⟨i, _, rfl⟩ := List.mem_map.mp hr
  simp

theorem sum_map_div (L : List ℚ) (c : ℚ) : (L.map (· / c)).sum = L.sum / c := by
  induction L with
  | nil => simp
  | cons x r ih => simp [ih, add_div]

theorem abs_sum_nonneg (L : List ℚ) : 0 ≤ (L.map abs).sum := by
  apply List.sum_nonneg
  intro x hx
  obtain ⟨y, _, rfl⟩ := List.mem_map.mp hx
  exact abs_nonneg y

theorem le_foldr_max (L : List ℚ) (x : ℚ) (hx : x ∈ L) : x ≤ L.foldr max 0 := by
  induction L with
  | nil => simp at hx
  | cons y r ih =>
    simp only [List.foldr_cons]
    rcases List.mem_cons.mp hx with rfl | hx
    · exact le_max_left _ _
    · exact le_trans (ih hx) (le_max_right _ _)

theorem foldr_max_mem (L : List ℚ) : L.foldr max 0 = 0 ∨ L.foldr max 0 ∈ L := by
  induction L with
  | nil => simp
  | cons y r ih =>
    simp only [List.foldr_cons]
    rcases max_choice y (r.foldr max 0) with e | e
    · right; rw [e]; simp
    · rw [e]
      rcases ih with h | h
      · exact Or.inl h
      · exact Or.inr (List.mem_cons_of_mem _ h)

theorem foldr_max_nonneg (L : List ℚ) : 0 ≤ L.foldr max 0 := by
  induction L with
  | nil => simp
  | cons y r ih => simp only [List.foldr_cons]; exact le_trans ih (le_max_right _ _)

theorem foldl_min_le (L : List ℚ) (z : ℚ) : L.foldl min z ≤ z ∧ (∀ x ∈ L, L.foldl min z ≤ x) ∧ (L.foldl min z = z ∨ L.foldl min z ∈ L) := by
  induction L generalizing z with
  | nil => simp
  | cons x r ih =>
    obtain ⟨h1, h2, h3⟩ := ih (min z x)
    simp only [List.foldl_cons]
    refine ⟨le_trans h1 (min_le_left _ _), ?_, ?_⟩
    · intro y hy
      rcases List.mem_cons.mp hy with rfl | hy
      · exact le_trans h1 (min_le_right _ _)
      · exact h2 y hy
    · rcases h3 with h3 | h3
      · rcases min_choice z x with e | e
        · rw [h3, e]; exact Or.inl rfl
        · rw [h3, e]; exact Or.inr (by simp)
      · exact Or.inr (List.mem_cons_of_mem _ h3)

theorem argMin_spec (L : List ℚ) (hne : L ≠ []) : ∃ h : argMin L < L.length, ∀ x ∈ L, L[argMin L] ≤ x := by
  induction L with
  | nil => exact absurd rfl hne
  | cons x r ih =>
    cases r with
    | nil => exact ⟨by simp [argMin], by simp [argMin]⟩
    | cons y r' =>
      obtain ⟨h, hmin⟩ := ih (by simp)
      unfold argMin
      split
      · rename_i hle
        refine ⟨by simp, fun z hz => ?_⟩
        simp only [List.getElem_cons_zero]
        rcases List.mem_cons.mp hz with rfl | hz
        · exact le_refl _
        · exact le_trans hle ((foldl_min_le (y :: r') y).2.1 z hz)
      · rename_i hle
        refine ⟨by simpa using h, fun z hz => ?_⟩
        simp only [List.getElem_cons_succ]
        rcases List.mem_cons.mp hz with rfl | hz
        · have hm : (y :: r').foldl min y ∈ (y :: r') := by
            rcases (foldl_min_le (y :: r') y).2.2 with e | e
            · rw [e]; simp
            · exact e
          exact le_trans (hmin _ hm) (le_of_lt (not_le.mp hle))
        · exact hmin z hz

/-! ## C120 -/

/-- C120: generated origin demands and destination sizes are shares: not negative, and they sum to one. -/
theorem C120_shares (draws xs : List ℚ) (h : synthShares draws = some xs) :
    xs.length = draws.length ∧ (∀ x ∈ xs, 0 ≤ x) ∧ xs.sum = 1 := by
  unfold synthShares at h
  simp only at h
  split at h
  · simp at h
  · rename_i hs
    simp only [Option.some.injEq] at h
    subst h
    refine ⟨by simp, ?_, ?_⟩
    · intro x hx
      obtain ⟨y, hy, rfl⟩ := List.mem_map.mp hx
      obtain ⟨z, _, rfl⟩ := List.mem_map.mp hy
      exact div_nonneg (abs_nonneg z) (abs_sum_nonneg draws)
    · rw [sum_map_div, div_self hs]

/-- C120: the shares exist as soon as one draw is not zero. -/
theorem C120_shares_exist (draws : List ℚ) (x : ℚ) (hx : x ∈ draws) (h0 : x ≠ 0) : ∃ xs, synthShares draws = some xs := by
  unfold synthShares
  have : (draws.map abs).sum ≠ 0 := by
    have hle : |x| ≤ (draws.map abs).sum :=
      List.single_le_sum (fun y hy => by obtain ⟨z, _, rfl⟩ := List.mem_map.mp hy; exact abs_nonneg z) _ (List.mem_map_of_mem hx)
    have : 0 < |x| := abs_pos.mpr h0
    linarith
  simp [this]

/-- Non-vacuity of the last two theorems. -/
example : synthShares [1, -2, 1] = some [1/4, 1/2, 1/4] := by decide +kernel

/-- The raw costs are not negative. -/
theorem costRaw_nonneg (n m : Nat) (draws : Nat → Nat → ℚ) : ∀ x ∈ (costRaw n m draws).flatten, 0 ≤ x := by
  intro x hx
  obtain ⟨r, hr, hx⟩ := List.mem_flatten.mp hx
  unfold costRaw buildMat at hr
  split at hr
  · obtain ⟨i, _, rfl⟩ := List.mem_map.mp hr
    obtain ⟨j, _, rfl⟩ := List.mem_map.mp hx
    positivity
  · obtain ⟨i, _, rfl⟩ := List.mem_map.mp hr
    obtain ⟨j, _, rfl⟩ := List.mem_map.mp hx
    exact abs_nonneg _

/-- C120: the generated cost matrix has the declared shape, entries between zero and one, one of them equal to one, and it is
symmetric if there are as many origins as destinations. -/
theorem C120_cost (n m : Nat) (draws : Nat → Nat → ℚ) (C : List (List ℚ)) (h : costMatrix n m draws = some C) :
    C.length = n ∧ (∀ r ∈ C, r.length = m) ∧ (∀ r ∈ C, ∀ x ∈ r, 0 ≤ x ∧ x ≤ 1) ∧ (∃ r ∈ C, (1 : ℚ) ∈ r) ∧
    (n = m → ∀ i j, i < n → j < n → matAt C i j = matAt C j i) := by
  unfold costMatrix at h
  simp only at h
  split at h
  · simp at h
  · rename_i hmax
    simp only [Option.some.injEq] at h
    subst h
    have hshape : (costRaw n m draws).length = n ∧ ∀ r ∈ costRaw n m draws, r.length = m := by
      unfold costRaw; split <;> exact buildMat_shape n m _
    have hpos : 0 < matMax (costRaw n m draws) := lt_of_le_of_ne (foldr_max_nonneg _) (Ne.symm hmax)
    refine ⟨by simpa using hshape.1, ?_, ?_, ?_, ?_⟩
    · intro r hr
      obtain ⟨r', hr', rfl⟩ := List.mem_map.mp hr
      simpa using hshape.2 r' hr'
    · intro r hr x hx
      obtain ⟨r', hr', rfl⟩ := List.mem_map.mp hr
      obtain ⟨y, hy, rfl⟩ := List.mem_map.mp hx
      have hyf : y ∈ (costRaw n m draws).flatten := List.mem_flatten.mpr ⟨r', hr', hy⟩
      exact ⟨div_nonneg (costRaw_nonneg n m draws y hyf) hpos.le, (div_le_one hpos).mpr (le_foldr_max _ y hyf)⟩
    · rcases foldr_max_mem (costRaw n m draws).flatten with e | e
      · exact absurd e hmax
      · obtain ⟨r', hr', hy⟩ := List.mem_flatten.mp e
        refine ⟨r'.map (· / matMax (costRaw n m draws)), List.mem_map_of_mem hr', ?_⟩
        exact List.mem_map.mpr ⟨_, hy, div_self hmax⟩
    · rintro rfl i j hi hj
      have key : ∀ a b, a < n → b < n → matAt ((costRaw n n draws).map fun r => r.map (· / matMax (costRaw n n draws))) a b =
          (|draws a b| + |draws b a|) / matMax (costRaw n n draws) := by
        intro a b ha hb
        have : costRaw n n draws = buildMat n n fun i j => |draws i j| + |draws j i| := by unfold costRaw; rw [if_pos rfl]
        generalize matMax (costRaw n n draws) = c
        rw [this]
        unfold matAt buildMat
        simp [ha, hb]
      rw [key i j hi hj, key j i hj hi, add_comm]

/-- Non-vacuity of `C120_cost`: a square matrix. -/
example : costMatrix 2 2 (fun i j => if i = 0 ∧ j = 1 then -3 else 1) = some [[1/2, 1], [1, 1/2]] := by decide +kernel

/-- C120: the total costs by origin are shares too, proportional to the row sums of the generated cost matrix. -/
theorem C120_total_cost (n m : Nat) (draws : Nat → Nat → ℚ) (C : List (List ℚ)) (t : List ℚ)
    (hC : costMatrix n m draws = some C) (ht : totalCost n m draws = some t) :
    t.sum = 1 ∧ ∃ c, t = C.map (fun r => c * r.sum) := by
  unfold costMatrix at hC
  unfold totalCost at ht
  simp only at hC ht
  split at hC
  · simp at hC
  · rename_i hmax
    split at ht
    · simp at ht
    · rename_i hs
      simp only [Option.some.injEq] at hC ht
      subst hC ht
      refine ⟨by rw [sum_map_div, div_self hs], matMax (costRaw n m draws) / ((costRaw n m draws).map List.sum).sum, ?_⟩
      rw [List.map_map, List.map_map]
      apply List.map_congr_left
      intro r _
      simp only [Function.comp_apply, sum_map_div]
      field_simp

/-- Non-vacuity of `C120_total_cost`. -/
example : costMatrix 1 2 (fun _ j => if j = 0 then 1 else 3) = some [[1/3, 1]] ∧
    totalCost 1 2 (fun _ j => if j = 0 then 1 else 3) = some [1] := by decide +kernel

/-- C120: the series stored for the solver has one row per destination and one column per time step asked for; its entries are the
means over the runs, of the last time steps. -/
theorem C120_solver (t n steps : Nat) (runs : List (List (List ℚ))) (hs : 0 < steps) (hst : steps ≤ t) :
    (solverAttraction t n runs steps).length = n ∧ (∀ r ∈ solverAttraction t n runs steps, r.length = steps) ∧
    ∀ j s, j < n → s < steps → matAt (solverAttraction t n runs steps) j s =
      (runs.map fun r => matAt r (t - steps + s) j).sum / runs.length := by
  have hlen : (lastK steps (meanSeries t n runs)).length = steps := by
    unfold lastK meanSeries
    rw [if_neg (by omega), List.length_drop, (buildMat_shape t n _).1]
    omega
  unfold solverAttraction transposeMat
  obtain ⟨h1, h2⟩ := buildMat_shape n (lastK steps (meanSeries t n runs)).length
    (fun j s => matAt (lastK steps (meanSeries t n runs)) s j)
  rw [hlen] at h1 h2 ⊢
  refine ⟨h1, h2, fun j s hj hss => ?_⟩
  rw [matAt_build hj hss]
  have hm : matAt (lastK steps (meanSeries t n runs)) s j = matAt (meanSeries t n runs) (t - steps + s) j := by
    unfold matAt lastK
    rw [if_neg (by omega), List.getElem?_drop]
    have : (meanSeries t n runs).length = t := (buildMat_shape t n _).1
    rw [this]
  rw [hm]
  unfold meanSeries
  rw [matAt_build (by omega) hj]

/-- Non-vacuity of `C120_solver`: two runs, three times, two destinations, the last two times. -/
example : solverAttraction 3 2 [[[1, 2], [3, 4], [5, 6]], [[1, 2], [5, 6], [7, 8]]] 2 = [[4, 6], [5, 7]] := by decide +kernel

/-- C120: of the optima found from the different starts, the one with the smallest potential is taken. -/
theorem C120_potential_minimum (expv : ℚ → ℚ) (xs : List (List ℚ)) (potentials : List ℚ) (hne : potentials ≠ [])
    (hl : potentials.length = xs.length) :
    ∃ (k : Nat) (x : List ℚ) (p : ℚ), xs[k]? = some x ∧ potentials[k]? = some p ∧ (∀ q ∈ potentials, p ≤ q) ∧
      potentialAttraction expv xs potentials = x.map expv := by
  obtain ⟨h, hmin⟩ := argMin_spec potentials hne
  refine ⟨argMin potentials, xs[argMin potentials], potentials[argMin potentials], List.getElem?_eq_getElem _,
    List.getElem?_eq_getElem h, hmin, ?_⟩
  unfold potentialAttraction
  rw [List.getElem?_eq_getElem (by omega)]
  rfl

/-- Non-vacuity. -/
example : potentialAttraction id [[1, 2], [3, 4], [5, 6]] [2, -1, 0] = [3, 4] := by decide +kernel

/-- C120: but what is stored of it are only as many destinations as there are time steps: the destination axis is cut as if it were
the time. -/
theorem C120_potential_stored_false :
    ¬ ∀ (expv : ℚ → ℚ) (xs : List (List ℚ)) (potentials : List ℚ) (n steps : Nat), potentials.length = xs.length → xs ≠ [] →
      (∀ x ∈ xs, x.length = n) → 0 < steps → (potentialStored expv xs potentials steps).length = n := by
  intro h
  have := h id [[1, 2, 3]] [0] 3 1 rfl (by simp) (by simp) (by omega)
  revert this
  decide +kernel

/-- C120: exactly: with one time step, only the last destination remains. -/
theorem C120_potential_stored (expv : ℚ → ℚ) (xs : List (List ℚ)) (potentials : List ℚ) (n steps : Nat)
    (hl : potentials.length = xs.length) (hne : xs ≠ []) (hn : ∀ x ∈ xs, x.length = n) (hs : 0 < steps) :
    (potentialStored expv xs potentials steps).length = min steps n := by
  have hp : potentials ≠ [] := by
    intro e; rw [e] at hl; exact hne (List.length_eq_zero_iff.mp hl.symm)
  obtain ⟨k, x, p, hx, _, _, e⟩ := C120_potential_minimum expv xs potentials hp hl
  unfold potentialStored lastK
  rw [if_neg (by omega), List.length_drop, e, List.length_map, hn x (List.mem_of_getElem? hx)]
  omega

/-- Non-vacuity. -/
example : potentialStored id [[1, 2, 3], [4, 5, 6]] [1, 0] 1 = [6] := by decide +kernel

/-- C120: a generated table has one entry per cell and the requested total, whatever the sample of the multinomial is — if the
dimension of time is one or absent; otherwise the generation fails. -/
theorem C120_table (dims : List (String × Nat)) (n m t : Nat) (counts : List Nat) (total : Nat)
    (hd : (dims.map (·.2)).prod = n * m * t) (hc : counts.length = n * m) (hs : counts.sum = total) (hpos : 0 < n * m) :
    (t = 1 → ∃ shape, synthTable dims counts = .ok (shape, counts) ∧ shape.prod = n * m ∧ counts.sum = total) ∧
    (t ≠ 1 → synthTable dims counts = .error .runtimeError) := by
  constructor
  · rintro rfl
    refine ⟨dims.map (·.2), ?_, by rw [hd, mul_one], hs⟩
    unfold synthTable
    rw [if_pos (by rw [hd, hc, mul_one])]
  · intro ht
    unfold synthTable
    rw [if_neg]
    rw [hd, hc]
    intro e
    apply ht
    have : n * m * t = n * m * 1 := by rw [e, mul_one]
    exact Nat.eq_of_mul_eq_mul_left hpos this

/-- Non-vacuity: the dimensions of the shipped configuration (smaller), and two time steps. -/
example : synthTable [("time", 1), ("origin", 2), ("destination", 2)] [3, 0, 1, 1] = .ok ([1, 2, 2], [3, 0, 1, 1]) ∧
    synthTable [("time", 2), ("origin", 2), ("destination", 2)] [3, 0, 1, 1] = .error .runtimeError := by decide +kernel

/-- C120: the uniform distribution cannot be used, whatever its bounds. -/
theorem C120_uniform_rejected (l u : ℚ) (draws : List ℚ) : ∀ xs, randomVector "uniform" l u draws ≠ .ok xs := by
  intro xs h
  unfold randomVector at h
  rw [if_pos rfl] at h
  split at h <;> simp at h

/-- C120: the name of the data set gives the numbers of origins and destinations if the last entry of `inputs.data` is the cost
matrix. -/
theorem C120_name (dims : List (String × Nat)) (keys : List String) (n m total : Nat) (ho : dims.lookup "origin" = some n)
    (hd : dims.lookup "destination" = some m) :
    synthName dims (keys ++ ["cost_matrix"]) total = .ok ([n, m], total) := by
  unfold synthName
  rw [List.getLast?_append]
  simp only [List.getLast?_singleton, Option.some_or]
  have : trainDims "cost_matrix" = some ["origin", "destination"] := by decide
  rw [this]
  simp [ho, hd]

/-- C120: the name depends on the order of the entries: with the demands last two data sets of different size get the same name. -/
theorem C120_name_false :
    ¬ ∀ (dims dims' : List (String × Nat)) (keys : List String) (total : Nat) (r : List Nat × Nat),
      synthName dims keys total = .ok r → synthName dims' keys total = .ok r → dims.lookup "destination" = dims'.lookup "destination" := by
  intro h
  have := h [("origin", 10), ("destination", 3), ("time", 1)] [("origin", 10), ("destination", 7), ("time", 1)]
    ["dims", "cost_matrix", "origin_demand"] 100 ([10], 100) (by decide +kernel) (by decide +kernel)
  revert this
  decide

/-- C120: and if the last entry is no input with dimensions, the generation fails at its end, before anything is written. -/
theorem C120_name_last_key (dims : List (String × Nat)) (keys : List String) (last : String) (total : Nat)
    (h : last ∉ ["origin_demand", "destination_demand", "origin_attraction_ts", "destination_attraction_ts", "cost_matrix",
      "total_cost_by_origin", "ground_truth_table", "adjacency_matrix"]) :
    synthName dims (keys ++ [last]) total = .error .keyError := by
  unfold synthName
  rw [List.getLast?_append]
  simp only [List.getLast?_singleton, Option.some_or]
  have : trainDims last = none := by
    simp only [List.mem_cons, List.not_mem_nil, or_false, not_or] at h
    unfold trainDims
    cases hf : trainSchema.find? (fun f => f.name = last) with
    | none => rfl
    | some f =>
      have hm := List.mem_of_find?_eq_some hf
      have hn := List.find?_some hf
      simp only [decide_eq_true_eq] at hn
      have : f.dims = [] ∨ f.name ∈ ["origin_demand", "destination_demand", "origin_attraction_ts", "destination_attraction_ts",
          "cost_matrix", "total_cost_by_origin", "ground_truth_table", "adjacency_matrix"] := by
        clear hf hn; revert f; decide
      rcases this with e | e
      · simp [e]
      · rw [hn] at e; simp [h] at e
  rw [this]

/-- Non-vacuity of the theorems on the name. -/
example : synthName [("time", 1), ("origin", 10), ("destination", 3)] ["dims", "origin_demand", "cost_matrix"] 33704 =
      .ok ([10, 3], 33704) ∧
    synthName [("time", 1), ("origin", 10), ("destination", 3)] ["cost_matrix", "synthesis_method"] 33704 = .error .keyError := by
  decide +kernel

end GeNSIT
