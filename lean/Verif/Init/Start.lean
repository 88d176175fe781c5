import Verif.Init.Props
import Verif.Chain.SampleProps

/-!
# Property theorem C167 (the first table of a chain)

`MarkovChainMonteCarlo.initialise_table` with whatever solver the configuration names
(`ContingencyTable_MCMC.py:143-190`, `contingency_table/__init__.py:778-788`, `:822-866`, `:929-1123`).
-/

namespace GeNSIT

open Spec

/-- The solvers defined as methods `table_<name>` that take the arguments of `initialise_table`
(`contingency_table/__init__.py:929`, `:982`, `:1013`, `:1038`, `:1048`). -/
def tableSolvers : List String :=
  ["monte_carlo_sample", "import", "random_sample", "direct_sampling", "maximum_entropy_solution"]

/-- The choices of the command-line option `--table0` (`main.py:151`, `static/global_variables.py:66-67`). -/
def cliTableSolvers : List String :=
  ["monte_carlo_sample", "maximum_entropy_solution", "iterative_residual_filling_solution",
    "iterative_uniform_residual_filling_solution"]

/-- The values the configuration schema admits for `table0` (`data/inputs/configs/schemas/cfg_schema.json:1781-1793`). -/
def schemaTableSolvers : List String := ["direct_sampling", "random_sample", "maximum_entropy_solution"]

/-- The solver name kept by `update_table_initialisation_solver` (`ContingencyTable_MCMC.py:143-156`): the name passed in
or configured is assigned first and then overwritten in both branches.  (`table_random_sample` is written here without
its prefix, which `map_table_solver_name_to_function` adds or not, `contingency_table/__init__.py:780-781`.) -/
def chooseSolver (asked : Option String) (configured : String) (constrained : List Ax) : String :=
  let _ := asked.getD configured
  if constrained.length = 0 then "random_sample" else configured

/-- What a table knows when a chain starts. -/
structure StartInfo (m n : Nat) where
  truth : Table m n
  margins : Margins
  residual : Margins
  constrained : List Ax
  fixed : List (Cell m n)

/-- Every random outcome a solver may use: uniform reals in `[0,1)` written as numerators below `2 ^ 24` for `randint`, the
successive outputs of the direct sampler, a permutation, and the choices of the maximum-entropy loop. -/
structure StartDraws (m n : Nat) where
  cell : Cell m n → Nat
  direct : List (Table m n)
  perm : List Int
  row : Fin m → Int
  col : Fin n → Int
  stop : Option (List Int) → Bool
  idx : Nat → Nat
  fuel : Nat

/-- `admissibility_debugging` (`contingency_table/__init__.py:822-866`): every branch taken after a failed assertion ends in an
exception; `none`. -/
def checked {m n : Nat} (s : StartInfo m n) (t : Table m n) : Option (Table m n) :=
  if tableAdmissible s.truth s.margins s.constrained s.fixed t = some true then some t else none

/-- `min_cell_value`, `max_cell_value` after the loop over the fixed cells (`contingency_table/__init__.py:1022-1026`). -/
def cellRange {m n : Nat} (s : StartInfo m n) : Int × Int :=
  s.fixed.foldl (fun r c => (min r.1 (s.truth c.1 c.2), max r.2 (s.truth c.1 c.2))) (0, 1)

/-- `table_random_sample` (`contingency_table/__init__.py:1013-1036`): `randint(low, high)` with
`low = min(min_cell_value, 1)`, `high = max(max_cell_value, 100)` is `low + (a random number) % (high - low)`. -/
def randomSample {m n : Nat} (s : StartInfo m n) (d : StartDraws m n) : Option (Table m n) :=
  if s.constrained.length = 0 then
    let low := min (cellRange s).1 1
    let high := max (cellRange s).2 100
    checked s (fun i j => if (i, j) ∈ s.fixed then s.truth i j else low + (d.cell (i, j) : Int) % (high - low))
  else none

/-- `initialise_table` with the chosen solver.  `none`: an exception, or a loop still running when the draws are exhausted.
`table_import` (`contingency_table/__init__.py:982-1011`) never returns: a file is read into an unused variable, and a list
has no attribute `to`.  A name without method raises (`:783-785`). -/
def startTable {m n : Nat} (asked : Option String) (configured : String) (s : StartInfo m n) (d : StartDraws m n) :
    Option (Table m n) :=
  match chooseSolver asked configured s.constrained with
  | "random_sample" => randomSample s d
  | "monte_carlo_sample" => checked s (monteCarlo s.truth s.fixed d.row d.col d.perm)
  | "direct_sampling" =>
      (rejectionLoop (tableAdmissible s.truth s.margins s.constrained s.fixed) d.direct).bind (checked s)
  | "maximum_entropy_solution" =>
      match maxEntropy s.truth s.margins s.residual s.constrained s.fixed d.stop d.idx d.fuel with
      | .done t => some t
      | _ => none
  | _ => none

/-- The direct sampler draws counts. -/
def StartDraws.Sound {m n : Nat} (d : StartDraws m n) : Prop := ∀ t ∈ d.direct, Nonneg t

/-! ## Lemmas -/

theorem checked_some {m n : Nat} {s : StartInfo m n} {t t' : Table m n} (h : checked s t = some t') :
    t = t' ∧ tableAdmissible s.truth s.margins s.constrained s.fixed t = some true := by
  unfold checked at h
  split at h
  · exact ⟨Option.some.inj h, by assumption⟩
  · cases h

theorem fixedTable_nonneg {m n : Nat} (truth : Table m n) (fixed : List (Cell m n))
    (h : ∀ c ∈ fixed, 0 ≤ truth c.1 c.2) : Nonneg (fixedTable truth fixed) := by
  unfold fixedTable
  suffices H : ∀ (l : List (Cell m n)) (t : Table m n), (∀ c ∈ l, 0 ≤ truth c.1 c.2) → Nonneg t →
      Nonneg (l.foldl (fun acc c => fun i j => if (i, j) = c then truth c.1 c.2 else acc i j) t) from
    H fixed _ h (fun _ _ => le_refl 0)
  intro l
  induction l with
  | nil => intro t _ h; exact h
  | cons c l ih =>
    intro t hl ht
    refine ih _ (fun c hc => hl c (by simp [hc])) ?_
    intro i j
    show 0 ≤ (if (i, j) = c then truth c.1 c.2 else t i j)
    split
    · exact hl c (by simp)
    · exact ht i j

theorem maxEntLoop_nonneg {m n : Nat} {adm : Table m n → Option Bool} {constrained : List Ax}
    {stop : Option (List Int) → Bool} {idx : Nat → Nat} {t : Table m n} :
    ∀ (fuel k : Nat) (s : MaxEnt m n), Nonneg s.table → maxEntLoop adm constrained stop idx fuel k s = .done t →
      Nonneg t := by
  intro fuel
  induction fuel with
  | zero => intro k s _ h; simp [maxEntLoop] at h
  | succ fuel ih =>
    intro k s hs h
    unfold maxEntLoop at h
    split at h
    · simp at h
    · split at h
      · simp at h
      · rename_i c _ _ s₁ hs₁
        have h1 : Nonneg s₁.table := by
          unfold maxEntChosen at hs₁
          split at hs₁
          · cases hs₁
          · split at hs₁
            · obtain rfl := Option.some.inj hs₁; exact hs
            · split at hs₁
              · split at hs₁
                · cases hs₁
                · obtain rfl := Option.some.inj hs₁
                  intro i j
                  show 0 ≤ (if (i, j) = c then s.table i j + 1 else s.table i j)
                  have := hs i j
                  split <;> omega
              · cases hs₁
        have h2 : Nonneg (maxEntReset s₁).table := by
          unfold maxEntReset; split <;> exact h1
        simp only at h
        split at h
        · split at h
          · simp at h
          · obtain rfl := LoopResult.done.inj h; exact h2
          · exact ih _ _ h2 h
        · exact ih _ _ h2 h

theorem cellRange_spec {m n : Nat} (s : StartInfo m n) :
    (cellRange s).1 ≤ 0 ∧ 1 ≤ (cellRange s).2 ∧
      (∀ c ∈ s.fixed, (cellRange s).1 ≤ s.truth c.1 c.2 ∧ s.truth c.1 c.2 ≤ (cellRange s).2) ∧
      ((∀ c ∈ s.fixed, 0 ≤ s.truth c.1 c.2) → (cellRange s).1 = 0) := by
  unfold cellRange
  suffices H : ∀ (l : List (Cell m n)) (r : Int × Int),
      let e := l.foldl (fun r c => (min r.1 (s.truth c.1 c.2), max r.2 (s.truth c.1 c.2))) r
      e.1 ≤ r.1 ∧ r.2 ≤ e.2 ∧ (∀ c ∈ l, e.1 ≤ s.truth c.1 c.2 ∧ s.truth c.1 c.2 ≤ e.2) ∧
        ((∀ c ∈ l, r.1 ≤ s.truth c.1 c.2) → e.1 = r.1) from by
    obtain ⟨a, b, c, d⟩ := H s.fixed (0, 1)
    exact ⟨a, b, c, d⟩
  intro l
  induction l with
  | nil => intro r; simp
  | cons c l ih =>
    intro r
    obtain ⟨h1, h2, h3, h4⟩ := ih (min r.1 (s.truth c.1 c.2), max r.2 (s.truth c.1 c.2))
    simp only [List.foldl_cons]
    dsimp only at h1 h2 h3 h4 ⊢
    refine ⟨by omega, by omega, ?_, ?_⟩
    · intro x hx
      rcases List.mem_cons.1 hx with rfl | hx
      · omega
      · exact h3 x hx
    · intro h
      have hc := h c (by simp)
      rw [h4 (fun x hx => by have := h x (by simp [hx]); omega)]
      omega

/-! ## Theorems -/

/-- **C167.**  Whatever solver is named, by the caller or by the configuration, a table that is returned meets every constrained
margin and every fixed cell, and has no negative entry when the known values have none. -/
theorem C167_admissible {m n : Nat} (asked : Option String) (configured : String) (s : StartInfo m n) (d : StartDraws m n)
    (hd : d.Sound) (row : Fin m → Int) (col : Fin n → Int) (tot : Int) (hm : Stores s.margins row col tot)
    (hc : TwoWay s.constrained) (t : Table m n) (h : startTable asked configured s d = some t) :
    Meets s.constrained row col tot s.fixed s.truth t ∧
      ((∀ c ∈ s.fixed, 0 ≤ s.truth c.1 c.2) → Nonneg t) := by
  have adm : tableAdmissible s.truth s.margins s.constrained s.fixed t = some true →
      Meets s.constrained row col tot s.fixed s.truth t := by
    intro ha
    obtain ⟨b, hb, hiff⟩ := C20_table_admissible_iff s.margins row col tot hm s.constrained hc s.fixed s.truth t
    rw [hb] at ha
    exact hiff.mp (Option.some.inj ha)
  unfold startTable at h
  split at h
  · unfold randomSample at h
    split at h
    · obtain ⟨ht, ha⟩ := checked_some h
      subst ht
      refine ⟨adm ha, fun h0 i j => ?_⟩
      obtain ⟨_, _, _, h4⟩ := cellRange_spec s
      have h5 := h4 h0
      dsimp only
      split
      · exact h0 (i, j) (by assumption)
      · have := Int.emod_nonneg (d.cell (i, j) : Int) (b := max (cellRange s).2 100 - min (cellRange s).1 1) (by omega)
        omega
    · cases h
  · obtain ⟨ht, ha⟩ := checked_some h
    subst ht
    refine ⟨adm ha, fun h0 i j => ?_⟩
    simp only [monteCarlo]
    split
    · exact h0 (i, j) (by assumption)
    · exact Int.natCast_nonneg _
  · cases hl : rejectionLoop (tableAdmissible s.truth s.margins s.constrained s.fixed) d.direct with
    | none => rw [hl] at h; cases h
    | some x =>
      rw [hl] at h
      obtain ⟨ht, ha⟩ := checked_some h
      subst ht
      exact ⟨adm ha, fun _ => hd _ (rejectionLoop_some hl).1⟩
  · split at h
    · rename_i t' hr
      obtain rfl := Option.some.inj h
      refine ⟨C15_returned_admissible _ _ _ _ hc _ row col tot hm _ _ _ _ hr, fun h0 => ?_⟩
      exact maxEntLoop_nonneg _ _ _ (fixedTable_nonneg _ _ h0) hr
    · cases h
  · cases h

/-- Without constrained margins a start always succeeds, whatever solver is named: fixed cells hold their known value, the other
cells lie between the smallest known value (at most 0) and 100 or the largest known value, exclusively. -/
theorem C167_unconstrained {m n : Nat} (asked : Option String) (configured : String) (s : StartInfo m n) (d : StartDraws m n)
    (hc : s.constrained = []) :
    ∃ t, startTable asked configured s d = some t ∧ AgreeAt s.fixed t s.truth ∧
      ∀ i j, (i, j) ∉ s.fixed → (t i j ≤ 99 ∨ ∃ c ∈ s.fixed, t i j < s.truth c.1 c.2) ∧
        (0 ≤ t i j ∨ ∃ c ∈ s.fixed, s.truth c.1 c.2 ≤ t i j) := by
  have hs : chooseSolver asked configured s.constrained = "random_sample" := by simp [chooseSolver, hc]
  have hex : ((cellRange s).2 ≤ 1 ∨ ∃ c ∈ s.fixed, (cellRange s).2 = s.truth c.1 c.2) ∧
      (0 ≤ (cellRange s).1 ∨ ∃ c ∈ s.fixed, (cellRange s).1 = s.truth c.1 c.2) := by
    unfold cellRange
    suffices H : ∀ (l : List (Cell m n)) (r : Int × Int),
        let e := l.foldl (fun r c => (min r.1 (s.truth c.1 c.2), max r.2 (s.truth c.1 c.2))) r
        (e.2 ≤ r.2 ∨ ∃ c ∈ l, e.2 = s.truth c.1 c.2) ∧ (r.1 ≤ e.1 ∨ ∃ c ∈ l, e.1 = s.truth c.1 c.2) from
      H s.fixed (0, 1)
    intro l
    induction l with
    | nil => intro r; simp
    | cons c l ih =>
      intro r
      obtain ⟨h1, h2⟩ := ih (min r.1 (s.truth c.1 c.2), max r.2 (s.truth c.1 c.2))
      obtain ⟨m1, m2⟩ : _ ∧ _ := by
        have H : ∀ (l : List (Cell m n)) (r : Int × Int),
            (l.foldl (fun r c => (min r.1 (s.truth c.1 c.2), max r.2 (s.truth c.1 c.2))) r).1 ≤ r.1 ∧
            r.2 ≤ (l.foldl (fun r c => (min r.1 (s.truth c.1 c.2), max r.2 (s.truth c.1 c.2))) r).2 := by
          intro l
          induction l with
          | nil => intro r; exact ⟨le_refl _, le_refl _⟩
          | cons c l ih2 =>
            intro r
            obtain ⟨a, b⟩ := ih2 (min r.1 (s.truth c.1 c.2), max r.2 (s.truth c.1 c.2))
            simp only [List.foldl_cons]
            dsimp only at a b ⊢
            constructor <;> omega
        exact H l (min r.1 (s.truth c.1 c.2), max r.2 (s.truth c.1 c.2))
      simp only [List.foldl_cons]
      dsimp only at h1 h2 m1 m2 ⊢
      constructor
      · rcases h1 with h1 | ⟨x, hx, h1⟩
        · by_cases hcase : s.truth c.1 c.2 ≤ r.2
          · left; omega
          · right; exact ⟨c, by simp, by omega⟩
        · right; exact ⟨x, by simp [hx], h1⟩
      · rcases h2 with h2 | ⟨x, hx, h2⟩
        · by_cases hcase : r.1 ≤ s.truth c.1 c.2
          · left; omega
          · right; exact ⟨c, by simp, by omega⟩
        · right; exact ⟨x, by simp [hx], h2⟩
  obtain ⟨k1, k2, _, _⟩ := cellRange_spec s
  refine ⟨fun i j => if (i, j) ∈ s.fixed then s.truth i j
      else min (cellRange s).1 1 + (d.cell (i, j) : Int) % (max (cellRange s).2 100 - min (cellRange s).1 1), ?_, ?_, ?_⟩
  · unfold startTable
    rw [hs]
    show randomSample s d = _
    unfold randomSample
    rw [if_pos (by simp [hc])]
    unfold checked
    rw [if_pos]
    simp only [tableAdmissible, tableMarginsAdmissible, hc, List.length_nil, lt_irrefl, if_false]
    congr 1
    rw [tableCellsAdmissible, List.all_eq_true]
    rintro ⟨i, j⟩ hx
    simp [hx]
  · intro i j hij
    simp [hij]
  · intro i j hij
    simp only [if_neg hij]
    have e0 := Int.emod_nonneg (d.cell (i, j) : Int) (b := max (cellRange s).2 100 - min (cellRange s).1 1) (by omega)
    have e1 := Int.emod_lt_of_pos (d.cell (i, j) : Int) (b := max (cellRange s).2 100 - min (cellRange s).1 1) (by omega)
    obtain ⟨a, b⟩ := hex
    constructor
    · rcases a with a | ⟨c, hc, a⟩
      · left; omega
      · by_cases h99 : min (cellRange s).1 1 + (d.cell (i, j) : Int) % (max (cellRange s).2 100 - min (cellRange s).1 1) ≤ 99
        · exact Or.inl h99
        · exact Or.inr ⟨c, hc, by omega⟩
    · rcases b with b | ⟨c, hc, b⟩
      · left; omega
      · exact Or.inr ⟨c, hc, by omega⟩

/-- The name passed by the caller never matters: only the configured one does, and it too is ignored without constrained
margins. -/
theorem C167_solver_ignored {m n : Nat} (asked : Option String) (configured : String) (s : StartInfo m n)
    (d : StartDraws m n) :
    startTable asked configured s d = startTable none configured s d ∧
      (s.constrained = [] → startTable asked configured s d = startTable none "random_sample" s d) := by
  refine ⟨rfl, fun h => ?_⟩
  unfold startTable
  simp [chooseSolver, h]

/-- With a constrained margin: `random_sample` and `import` always raise, and so does any name that is not a solver. -/
theorem C167_refused {m n : Nat} (asked : Option String) (configured : String) (s : StartInfo m n) (d : StartDraws m n)
    (hc : s.constrained ≠ [])
    (h : configured = "random_sample" ∨ configured = "import" ∨ configured ∉ tableSolvers) :
    startTable asked configured s d = none := by
  have hs : chooseSolver asked configured s.constrained = configured := by
    simp [chooseSolver, hc]
  unfold startTable
  rw [hs]
  have hl : s.constrained.length ≠ 0 := by simpa using hc
  rcases h with rfl | rfl | h
  · show randomSample s d = none
    simp [randomSample, hl]
  · rfl
  · split
    · exact absurd (by simp [tableSolvers]) h
    · exact absurd (by simp [tableSolvers]) h
    · exact absurd (by simp [tableSolvers]) h
    · exact absurd (by simp [tableSolvers]) h
    · rfl

/-- "Every initial solver a user may name on the command line starts the chain" is false: of the four choices two are not solvers at
all, and only one passes the configuration schema; of the schema's three values one raises as soon as a margin is
constrained. -/
theorem C167_choices_false :
    cliTableSolvers.filter (fun x => tableSolvers.contains x) = ["monte_carlo_sample", "maximum_entropy_solution"] ∧
    cliTableSolvers.filter (fun x => schemaTableSolvers.contains x) = ["maximum_entropy_solution"] ∧
    ∀ (m n : Nat) (s : StartInfo m n) (d : StartDraws m n), s.constrained ≠ [] →
      startTable none "random_sample" s d = none := by
  refine ⟨by decide +kernel, by decide +kernel, fun m n s d h => C167_refused none _ s d h (Or.inl rfl)⟩

/-- With consistent margins and no fixed cell, the default solver starts the chain, for every sequence of random choices. -/
theorem C167_default_starts {m n : Nat} (hm : 0 < m) (hn : 0 < n) (asked : Option String) (s : StartInfo m n)
    (d : StartDraws m n) (hfix : s.fixed = []) (hnd : s.constrained.Nodup) (htw : TwoWay s.constrained)
    (h01 : [0, 1] ∈ s.constrained) (row : Fin m → Int) (col : Fin n → Int) (tot : Int)
    (hsm : Stores s.margins row col tot) (hsr : Stores s.residual row col tot) (h0 : 0 ≤ tot) (hr0 : ∀ i, 0 ≤ row i)
    (hc0 : ∀ j, 0 ≤ col j) (hr : [1] ∈ s.constrained → ∑ i, row i = tot) (hc : [0] ∈ s.constrained → ∑ j, col j = tot)
    (hstop : ∀ x, d.stop (some [x]) = true → x = 0) (hfuel : tot.toNat + m * n ≤ d.fuel) :
    ∃ t, startTable asked "maximum_entropy_solution" s d = some t ∧ Nonneg t ∧
      Meets s.constrained row col tot s.fixed s.truth t := by
  have hne : s.constrained ≠ [] := List.ne_nil_of_mem h01
  have hs : chooseSolver asked "maximum_entropy_solution" s.constrained = "maximum_entropy_solution" := by
    simp [chooseSolver, hne]
  obtain ⟨t, ht, hn', hM⟩ := C15_max_entropy hm hn s.truth s.margins s.residual s.constrained hnd htw h01 row col tot hsm hsr h0
    hr0 hc0 hr hc d.stop hstop d.idx d.fuel hfuel
  refine ⟨t, ?_, hn', hfix ▸ hM⟩
  unfold startTable
  rw [hs]
  show (match maxEntropy s.truth s.margins s.residual s.constrained s.fixed d.stop d.idx d.fuel with
    | .done t => some t
    | _ => none) = some t
  rw [hfix, ht]

/-! ## Concrete instances -/

/-- A doubly constrained 2×2 table with one known value per cell. -/
def startInfo : StartInfo 2 2 where
  truth := ![![1, 1], ![0, 1]]
  margins := fun a => if a = [0] then some [1, 2] else if a = [1] then some [2, 1] else if a = [0, 1] then some [3] else none
  residual := fun a => if a = [0] then some [1, 2] else if a = [1] then some [2, 1] else if a = [0, 1] then some [3] else none
  constrained := [[0], [0, 1], [1]]
  fixed := []

/-- Draws: the direct sampler's second output fits. -/
def startDraws : StartDraws 2 2 where
  cell := fun c => 257 * c.1.val + 31 * c.2.val + 5
  direct := [![![3, 0], ![0, 0]], ![![0, 2], ![1, 0]]]
  perm := [2, 1, 3]
  row := ![2, 1]
  col := ![1, 2]
  stop := fun _ => false
  idx := fun k => k * k
  fuel := 7

theorem startDraws_sound : startDraws.Sound := by
  intro t ht
  simp only [startDraws, List.mem_cons, List.not_mem_nil, or_false] at ht
  rcases ht with rfl | rfl <;> (intro i j; revert i j; decide +kernel)

example : startDraws.Sound ∧ Stores startInfo.margins ![2, 1] ![1, 2] 3 ∧ TwoWay startInfo.constrained ∧
    (startTable none "direct_sampling" startInfo startDraws).map (fun t => (t 0 0, t 0 1, t 1 0, t 1 1)) = some (0, 2, 1, 0) ∧
    (startTable none "maximum_entropy_solution" startInfo startDraws).map (fun t => (t 0 0, t 0 1, t 1 0, t 1 1))
      = some (1, 1, 0, 1) ∧
    (startTable none "monte_carlo_sample" startInfo startDraws).map (fun t => (t 0 0, t 0 1, t 1 0, t 1 1))
      = some (1, 1, 0, 1) := by
  refine ⟨startDraws_sound, ⟨rfl, rfl, rfl⟩, ?_, ?_, ?_, ?_⟩
  · intro a ha
    simp [startInfo] at ha
    tauto
  all_goals decide +kernel

/-- Unconstrained, with one fixed cell above 100. -/
example : (startTable (some "direct_sampling") "maximum_entropy_solution"
    { startInfo with
      constrained := []
      fixed := [(0, 0)]
      truth := ![![150, 1], ![0, 1]] } startDraws).map
      (fun t => (t 0 0, t 0 1, t 1 0, t 1 1)) = some (150, 36, 112, 143) := by
  decide +kernel

end GeNSIT
