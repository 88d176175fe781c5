import Verif.Analysis.GridLemmas

/-!
# The grid search for R² reports its maximum (C121); so does the search for the log target (C122)
-/

set_option linter.unusedSimpArgs false
set_option linter.unusedVariables false

namespace GeNSIT

/-! ## Specification -/

/-- R²: one minus the squared error over the variation of the data around their mean. -/
def Spec.RSquared (w x : List ℚ) (r : ℚ) : Prop :=
  ∃ (n : Nat) (f g : Fin n → ℚ), w = List.ofFn f ∧ x = List.ofFn g ∧
    r = 1 - (∑ j, (g j - f j) ^ 2) / ∑ j, (f j - (∑ k, f k) / n) ^ 2

/-- The parameters of the model at a point: `alpha` and `beta` as given, the other learned parameters at their defaults. -/
def Spec.modelAt (others : List String) (default : String → ℚ) (a b : ℚ) : List (String × ℚ) :=
  ("alpha", a) :: ("beta", b) :: others.map fun n => (n, default n)

/-- `p` is the first point of the list at which `f` is largest. -/
def Spec.FirstMax {α : Type} (L : List α) (f : α → ℚ) (p : α) : Prop :=
  ∃ pre post, L = pre ++ p :: post ∧ (∀ q ∈ L, f q ≤ f p) ∧ ∀ q ∈ pre, f q < f p

/-! ## C121 -/

theorem sqDist_ofFn {n : Nat} (f g : Fin n → ℚ) : sqDist (List.ofFn f) (List.ofFn g) = ∑ j, (f j - g j) ^ 2 := by
  unfold sqDist
  have : List.zipWith (fun u v : ℚ => (u - v) * (u - v)) (List.ofFn f) (List.ofFn g) = List.ofFn fun j => (f j - g j) ^ 2 := by
    apply List.ext_getElem
    · simp
    · intro i h1 h2
      simp [sq]
  rw [this, List.sum_ofFn]

/-- C121: the score is R². -/
theorem C121_score (w x : List ℚ) (h : x.length = w.length) : Spec.RSquared w x (r2Score w x) := by
  refine ⟨w.length, fun j => w[j], fun j => x[(j : Nat)]'(by rw [h]; exact j.2), ?_, ?_, ?_⟩
  · apply List.ext_getElem <;> simp
  · apply List.ext_getElem
    · simp [h]
    · intro i h1 h2; simp
  · have hw : w = List.ofFn fun j : Fin w.length => w[j] := by apply List.ext_getElem <;> simp
    have hx : x = List.ofFn fun j : Fin w.length => x[(j : Nat)]'(by rw [h]; exact j.2) := by
      apply List.ext_getElem
      · simp [h]
      · intro i h1 h2; simp
    have hs : w.sum = ∑ k : Fin w.length, w[k] := by
      conv_lhs => rw [hw]
      rw [List.sum_ofFn]
    have hm : List.replicate w.length (meanQ w) = List.ofFn fun _ : Fin w.length => (∑ k : Fin w.length, w[k]) / w.length := by
      apply List.ext_getElem
      · simp
      · intro i h1 h2
        simp only [List.getElem_replicate, List.getElem_ofFn, meanQ]
        rw [hs]
    have h1 := sqDist_ofFn (fun j : Fin w.length => x[(j : Nat)]'(by rw [h]; exact j.2)) fun j : Fin w.length => w[j]
    have h2 := sqDist_ofFn (fun j : Fin w.length => w[j]) fun _ : Fin w.length => (∑ k : Fin w.length, w[k]) / w.length
    rw [← hx, ← hw] at h1
    rw [← hm, ← hw] at h2
    unfold r2Score
    rw [h1, h2]

example : ∃ r, Spec.RSquared [1, 2, 3] [1, 2, 2] r ∧ r = 1 / 2 :=
  ⟨_, C121_score [1, 2, 3] [1, 2, 2] rfl, by norm_num [r2Score, sqDist, meanQ, List.replicate]⟩

/-- The dictionary of parameters used at a grid point. -/
theorem gridParams_ordered (others : List String) (default : String → ℚ) (a b : ℚ) :
    gridParams ("alpha" :: "beta" :: others) default a b = some (Spec.modelAt others default a b) := by
  unfold gridParams
  rw [if_neg (by simp)]
  simp only [Spec.modelAt, List.map_cons, List.set_cons_zero, List.set_cons_succ, List.zip_cons_cons, Option.some.injEq,
    List.cons.injEq, true_and]
  rw [List.zip_map_right]
  induction others with
  | nil => rfl
  | cons n r ih => simp_all

/-- Everything a successful analysis says, in terms of grid indices. -/
theorem rSquared_core {c : GridConfig} {solve : List (String × ℚ) → Option (List ℚ)} {w fallback : List ℚ} {rep : GridReport}
    (h : rSquared c solve w fallback = some rep) :
    ∃ i j k, c.alphas[i]? = some rep.alpha ∧ c.betas[j]? = some rep.beta ∧ rep.scaledBeta = rep.beta * c.bmax ∧
      (∀ p ∈ gridPoints c.alphas.length c.betas.length, rep.grid p = (c.predict solve p).map (r2Score w)) ∧
      rep.score = rep.grid (i, j) ∧ (gridPoints c.alphas.length c.betas.length)[k]? = some (i, j) ∧
      npArgmax ((gridPoints c.alphas.length c.betas.length).map rep.grid) = some k ∧
      ∃ s, gridLoop c.shape (c.predict solve) w (gridPoints c.alphas.length c.betas.length) ⟨0, fallback, fun _ => some 0⟩ = some s ∧
        rep.predicted = s.pred ∧ rep.grid = s.grid := by
  unfold rSquared at h
  split at h
  · simp at h
  rename_i hnames
  cases hl : gridLoop c.shape (c.predict solve) w (gridPoints c.alphas.length c.betas.length) ⟨0, fallback, fun _ => some 0⟩ with
  | none => rw [hl] at h; simp at h
  | some s =>
    rw [hl] at h
    simp only at h
    cases ha : npArgmax ((gridPoints c.shape.1 c.shape.2).map s.grid) with
    | none => rw [ha] at h; simp at h
    | some k =>
      rw [ha] at h
      simp only at h
      obtain ⟨g1, g2, _⟩ := gridLoop_grid (gridPoints_nodup _ _) hl
      have hk := npArgmax_lt ha
      rw [List.length_map, gridPoints_length] at hk
      have hpos1 : 0 < c.shape.1 := by
        rcases Nat.eq_zero_or_pos c.shape.1 with h0 | h0
        · rw [h0] at hk; simp at hk
        · exact h0
      have hpos2 : 0 < c.shape.2 := by
        rcases Nat.eq_zero_or_pos c.shape.2 with h0 | h0
        · rw [h0] at hk; simp at hk
        · exact h0
      have hshape : c.shape = (c.alphas.length, c.betas.length) := by
        unfold GridConfig.shape at hpos1 hpos2 ⊢
        by_cases hb : c.betaFirst = true
        · rw [if_pos hb] at hpos1 hpos2 ⊢
          simp only at hpos1 hpos2
          have hl1 := g1 (c.alphas.length - 1, 0) (mem_gridPoints.2 ⟨by simp; omega, by simpa using hpos1⟩)
          have hl2 := g1 (0, c.betas.length - 1) (mem_gridPoints.2 ⟨by simpa using hpos2, by simp; omega⟩)
          unfold GridConfig.shape at hl1 hl2
          rw [if_pos hb] at hl1 hl2
          simp only at hl1 hl2
          have : c.alphas.length = c.betas.length := by omega
          rw [this]
        · rw [if_neg hb]
      rw [hshape] at h hk ha
      simp only at h hk ha
      cases e1 : c.alphas[k / c.betas.length]? with
      | none => rw [e1] at h; simp at h
      | some a =>
        cases e2 : c.betas[k % c.betas.length]? with
        | none => rw [e1, e2] at h; simp at h
        | some b =>
          rw [e1, e2] at h
          simp only [Option.some.injEq] at h
          subst h
          exact ⟨k / c.betas.length, k % c.betas.length, k, e1, e2, rfl, g2, rfl, gridPoints_get _ _ _ hk, ha, s, rfl, rfl, rfl⟩

/-- The parameters the analysis evaluates the model with: the potential at `alpha` and `beta * bmax`, the solver at `alpha` and
`beta`. -/
def Spec.evaluatedAt (c : GridConfig) (others : List String) (a b : ℚ) : List (String × ℚ) :=
  match c.method with
  | .potential => Spec.modelAt others c.default a (b * c.bmax)
  | .solver => [("alpha", a), ("beta", b)]

theorem predict_eq {c : GridConfig} {others : List String} (hn : c.names = "alpha" :: "beta" :: others)
    (solve : List (String × ℚ) → Option (List ℚ)) {i j : Nat} {a b : ℚ} (ha : c.alphas[i]? = some a) (hb : c.betas[j]? = some b) :
    c.predict solve (i, j) = solve (Spec.evaluatedAt c others a b) := by
  unfold GridConfig.predict
  simp only [ha, hb]
  unfold gridDict
  rw [hn, gridParams_ordered]
  unfold Spec.evaluatedAt
  cases c.method <;> rfl

/-- The scores along the grid, when no evaluation fails. -/
theorem firstMax_of_argmax {L : List (Nat × Nat)} {grid : Nat × Nat → Option ℚ} {f : Nat × Nat → ℚ} {k : Nat} {p : Nat × Nat}
    (hf : ∀ q ∈ L, grid q = some (f q)) (hk : npArgmax (L.map grid) = some k) (hp : L[k]? = some p) : Spec.FirstMax L f p := by
  have hno : none ∉ L.map grid := by
    intro hc
    obtain ⟨q, hq, e⟩ := List.mem_map.1 hc
    rw [hf q hq] at e
    simp at e
  obtain ⟨x, h1, h2, h3⟩ := (npArgmax_spec hk).2 hno
  have hpm : p ∈ L := List.mem_of_getElem? hp
  rw [List.getElem?_map, hp] at h1
  simp only [Option.map_some, Option.some.injEq] at h1
  rw [hf p hpm] at h1
  simp only [Option.some.injEq] at h1
  subst h1
  obtain ⟨hlt, hget⟩ := List.getElem?_eq_some_iff.1 hp
  refine ⟨L.take k, L.drop (k + 1), ?_, ?_, ?_⟩
  · rw [← hget, List.cons_getElem_drop_succ, List.take_append_drop]
  · intro q hq
    obtain ⟨i, hi, e⟩ := List.getElem_of_mem hq
    exact h2 i (f q) (by rw [List.getElem?_map, List.getElem?_eq_getElem hi, e]; simp [hf q hq])
  · intro q hq
    obtain ⟨i, hi, e⟩ := List.getElem_of_mem hq
    rw [List.length_take] at hi
    have hi' : i < L.length := by omega
    rw [List.getElem_take] at e
    have hqL : q ∈ L := e ▸ List.getElem_mem hi'
    exact h3 i (by omega) (f q) (by rw [List.getElem?_map, List.getElem?_eq_getElem hi', e]; simp [hf q hqL])

/-- C121: if every evaluation succeeds, the reported parameters are a grid point, the reported R² is that of the prediction there,
and no grid point has a larger one. -/
theorem C121_maximum (c : GridConfig) (solve : List (String × ℚ) → Option (List ℚ)) (w fallback : List ℚ) (rep : GridReport)
    (others : List String) (hn : c.names = "alpha" :: "beta" :: others) (h : rSquared c solve w fallback = some rep)
    (hall : ∀ a ∈ c.alphas, ∀ b ∈ c.betas, (solve (Spec.evaluatedAt c others a b)).isSome) :
    rep.alpha ∈ c.alphas ∧ rep.beta ∈ c.betas ∧ rep.scaledBeta = rep.beta * c.bmax ∧
    ∃ x, solve (Spec.evaluatedAt c others rep.alpha rep.beta) = some x ∧ rep.score = some (r2Score w x) ∧
      ∀ a ∈ c.alphas, ∀ b ∈ c.betas, ∀ y, solve (Spec.evaluatedAt c others a b) = some y → r2Score w y ≤ r2Score w x := by
  obtain ⟨i, j, k, ha, hb, hs, hg, hsc, hk, harg, _⟩ := rSquared_core h
  have ham := List.mem_of_getElem? ha
  have hbm := List.mem_of_getElem? hb
  refine ⟨ham, hbm, hs, ?_⟩
  obtain ⟨x, hx⟩ := Option.isSome_iff_exists.1 (hall _ ham _ hbm)
  have hf : ∀ q ∈ gridPoints c.alphas.length c.betas.length,
      rep.grid q = some (((c.predict solve q).map (r2Score w)).getD 0) := by
    intro q hq
    obtain ⟨h1, h2⟩ := mem_gridPoints.1 hq
    rw [hg q hq]
    have e1 : c.alphas[q.1]? = some c.alphas[q.1] := List.getElem?_eq_getElem h1
    have e2 : c.betas[q.2]? = some c.betas[q.2] := List.getElem?_eq_getElem h2
    have := predict_eq hn solve e1 e2
    obtain ⟨y, hy⟩ := Option.isSome_iff_exists.1 (hall _ (List.getElem_mem h1) _ (List.getElem_mem h2))
    rw [show q = (q.1, q.2) from rfl, this, hy]
    simp
  obtain ⟨pre, post, e, hmax, hpre⟩ := firstMax_of_argmax hf harg hk
  have hpx : c.predict solve (i, j) = some x := by rw [predict_eq hn solve ha hb, hx]
  have hmem : (i, j) ∈ gridPoints c.alphas.length c.betas.length := List.mem_of_getElem? hk
  refine ⟨x, hx, ?_, ?_⟩
  · rw [hsc, hg _ hmem, hpx]; rfl
  · intro a hA b hB y hy
    obtain ⟨i', hi', rfl⟩ := List.getElem_of_mem hA
    obtain ⟨j', hj', rfl⟩ := List.getElem_of_mem hB
    have := hmax (i', j') (mem_gridPoints.2 ⟨hi', hj'⟩)
    beta_reduce at this
    rw [predict_eq hn solve (List.getElem?_eq_getElem hi') (List.getElem?_eq_getElem hj'), hy, hpx] at this
    simpa using this

/-- C121 (partial: when the best R² is positive): the stored prediction is the one made at the reported parameters. -/
theorem C121_prediction_partial (c : GridConfig) (solve : List (String × ℚ) → Option (List ℚ)) (w fallback : List ℚ) (rep : GridReport)
    (others : List String) (hn : c.names = "alpha" :: "beta" :: others) (h : rSquared c solve w fallback = some rep)
    (hall : ∀ a ∈ c.alphas, ∀ b ∈ c.betas, (solve (Spec.evaluatedAt c others a b)).isSome)
    (hpos : ∃ r, rep.score = some r ∧ 0 < r) :
    solve (Spec.evaluatedAt c others rep.alpha rep.beta) = some rep.predicted := by
  obtain ⟨_, _, _, x, hx, hscore, _⟩ := C121_maximum c solve w fallback rep others hn h hall
  obtain ⟨r, hr, hr0⟩ := hpos
  rw [hscore] at hr
  simp only [Option.some.injEq] at hr
  subst hr
  obtain ⟨i, j, k, ha, hb, hs, hg, hsc, hk, harg, s, hl, hpred, hgs⟩ := rSquared_core h
  have hpx : c.predict solve (i, j) = some x := by rw [predict_eq hn solve ha hb, hx]
  have hmem : (i, j) ∈ gridPoints c.alphas.length c.betas.length := List.mem_of_getElem? hk
  have hsucc : ∀ q ∈ gridPoints c.alphas.length c.betas.length, ∃ y, c.predict solve q = some y := by
    intro q hq
    obtain ⟨h1, h2⟩ := mem_gridPoints.1 hq
    have := predict_eq hn solve (List.getElem?_eq_getElem h1) (List.getElem?_eq_getElem h2)
    obtain ⟨y, hy⟩ := Option.isSome_iff_exists.1 (hall _ (List.getElem_mem h1) _ (List.getElem_mem h2))
    exact ⟨y, by rw [show q = (q.1, q.2) from rfl, this, hy]⟩
  have hf : ∀ q ∈ gridPoints c.alphas.length c.betas.length,
      rep.grid q = some (((c.predict solve q).map (r2Score w)).getD 0) := by
    intro q hq
    obtain ⟨y, hy⟩ := hsucc q hq
    rw [hg q hq, hy]
    simp
  obtain ⟨pre, post, e, hmax, hpre⟩ := firstMax_of_argmax hf harg hk
  obtain ⟨b1, b2, b3⟩ := gridLoop_best hl
  simp only at b1 b3
  rcases b3 with ⟨b3, _⟩ | ⟨pre', p, post', y, e', hy, hbest, hpd, hlt, hpre'⟩
  · have := b2 _ hmem x hpx
    rw [b3] at this
    exact absurd hr0 (not_lt.2 this)
  · -- both are the first maximum of the same list
    have hpm : p ∈ gridPoints c.alphas.length c.betas.length := by rw [e']; simp
    have hle : r2Score w y ≤ r2Score w x := by
      have := hmax p hpm
      beta_reduce at this
      rw [hy, hpx] at this
      simpa using this
    have hge : r2Score w x ≤ r2Score w y := by
      have := b2 _ hmem x hpx
      rwa [hbest] at this
    have hpp : p = (i, j) := by
      have hlist : pre ++ (i, j) :: post = pre' ++ p :: post' := by rw [← e, ← e']
      rcases List.append_eq_append_iff.1 hlist with ⟨m, e1, e2⟩ | ⟨m, e1, e2⟩
      · cases m with
        | nil => simp at e2; exact e2.1.symm
        | cons q r =>
          simp at e2
          have hq : (i, j) ∈ pre' := by rw [e1, e2.1]; simp
          exact absurd (hpre' _ hq x hpx) (not_lt.2 hle)
      · cases m with
        | nil => simp at e2; exact e2.1
        | cons q r =>
          simp at e2
          have hq : p ∈ pre := by rw [e1, e2.1]; simp
          have := hpre _ hq
          beta_reduce at this
          rw [hy, hpx] at this
          simp only [Option.map_some, Option.getD_some] at this
          exact absurd this (not_lt.2 hge)
    rw [hx, hpred, hpd]
    rw [hpp, hpx] at hy
    exact hy

/-- A small search: two values of each parameter, data `(1, 2, 3)`, predictions that are best at the last point. -/
def exGrid : GridConfig where
  method := .potential
  names := ["alpha", "beta", "sigma"]
  default := fun _ => 0
  bmax := 10
  alphas := [0, 1]
  betas := [0, 1]
  betaFirst := false

def exGridSolve : List (String × ℚ) → Option (List ℚ)
  | (_, a) :: (_, b) :: _ => some [1, 2, 1 + (a + b / 10) / 2]
  | _ => none

example : ∃ rep, rSquared exGrid exGridSolve [1, 2, 3] [9, 9, 9] = some rep ∧ rep.alpha = 1 ∧ rep.beta = 1 ∧ rep.scaledBeta = 10 ∧
    rep.predicted = [1, 2, 2] ∧ rep.score = some (1 / 2) ∧ exGrid.names = "alpha" :: "beta" :: ["sigma"] ∧
    (∀ a ∈ exGrid.alphas, ∀ b ∈ exGrid.betas, (exGridSolve (Spec.evaluatedAt exGrid ["sigma"] a b)).isSome) := by
  cases h : rSquared exGrid exGridSolve [1, 2, 3] [9, 9, 9] with
  | none => revert h; decide +kernel
  | some rep =>
    refine ⟨rep, rfl, ?_⟩
    have h1 : (rSquared exGrid exGridSolve [1, 2, 3] [9, 9, 9]).map (fun r => (r.alpha, r.beta, r.scaledBeta, r.predicted, r.score)) =
      some (1, 1, 10, [1, 2, 2], some (1 / 2)) := by decide +kernel
    rw [h] at h1
    simp only [Option.map_some, Option.some.injEq, Prod.mk.injEq] at h1
    exact ⟨h1.1, h1.2.1, h1.2.2.1, h1.2.2.2.1, h1.2.2.2.2, rfl, by decide⟩

/-- C121: the stored prediction need not belong to the reported parameters: when no R² is positive, the prediction stored is the
constant one set before the search. -/
theorem C121_prediction_false : ¬ ∀ (c : GridConfig) (solve : List (String × ℚ) → Option (List ℚ)) (w fallback : List ℚ)
    (rep : GridReport) (others : List String), c.names = "alpha" :: "beta" :: others → rSquared c solve w fallback = some rep →
    (∀ a ∈ c.alphas, ∀ b ∈ c.betas, (solve (Spec.evaluatedAt c others a b)).isSome) →
    solve (Spec.evaluatedAt c others rep.alpha rep.beta) = some rep.predicted := by
  intro hA
  have h1 : (rSquared exGrid (fun _ => some [3, 2, 1]) [1, 2, 3] [9, 9, 9]).map (·.predicted) = some [9, 9, 9] := by decide +kernel
  cases h : rSquared exGrid (fun _ => some [3, 2, 1]) [1, 2, 3] [9, 9, 9] with
  | none => rw [h] at h1; simp at h1
  | some rep =>
    rw [h] at h1
    simp only [Option.map_some, Option.some.injEq] at h1
    have := hA _ _ _ _ _ ["sigma"] rfl h (by intros; rfl)
    rw [h1] at this
    simp at this

/-- C121: when no R² is positive the stored prediction is the one set before the search, whatever the model predicts. -/
theorem C121_no_positive_score (c : GridConfig) (solve : List (String × ℚ) → Option (List ℚ)) (w fallback : List ℚ) (rep : GridReport)
    (others : List String) (hn : c.names = "alpha" :: "beta" :: others) (h : rSquared c solve w fallback = some rep)
    (hneg : ∀ a ∈ c.alphas, ∀ b ∈ c.betas, ∀ y, solve (Spec.evaluatedAt c others a b) = some y → r2Score w y ≤ 0) :
    rep.predicted = fallback := by
  obtain ⟨i, j, k, ha, hb, hs, hg, hsc, hk, harg, s, hl, hpred, hgs⟩ := rSquared_core h
  obtain ⟨b1, b2, b3⟩ := gridLoop_best hl
  simp only at b1 b3
  rcases b3 with ⟨_, b3⟩ | ⟨pre', p, post', y, e', hy, hbest, hpd, hlt, hpre'⟩
  · rw [hpred, b3]
  · have hpm : p ∈ gridPoints c.alphas.length c.betas.length := by rw [e']; simp
    obtain ⟨h1, h2⟩ := mem_gridPoints.1 hpm
    have := predict_eq hn solve (List.getElem?_eq_getElem h1) (List.getElem?_eq_getElem h2)
    rw [show p = (p.1, p.2) from rfl, this] at hy
    exact absurd hlt (not_lt.2 (hneg _ (List.getElem_mem h1) _ (List.getElem_mem h2) _ hy))

example : ∃ rep, rSquared exGrid (fun _ => some [3, 2, 1]) [1, 2, 3] [9, 9, 9] = some rep ∧ r2Score [1, 2, 3] [3, 2, 1] ≤ 0 := by
  cases h : rSquared exGrid (fun _ => some [3, 2, 1]) [1, 2, 3] [9, 9, 9] with
  | none => revert h; decide +kernel
  | some rep => exact ⟨rep, rfl, by decide +kernel⟩

/-- C121: one failed optimisation decides the result: the reported point is the first failed one, and its R² is missing, however
good the other points are. -/
theorem C121_failed_point (c : GridConfig) (solve : List (String × ℚ) → Option (List ℚ)) (w fallback : List ℚ) (rep : GridReport)
    (others : List String) (hn : c.names = "alpha" :: "beta" :: others) (h : rSquared c solve w fallback = some rep)
    (hfail : ∃ a ∈ c.alphas, ∃ b ∈ c.betas, solve (Spec.evaluatedAt c others a b) = none) :
    rep.score = none ∧ solve (Spec.evaluatedAt c others rep.alpha rep.beta) = none := by
  obtain ⟨i, j, k, ha, hb, hs, hg, hsc, hk, harg, _⟩ := rSquared_core h
  have hmem : (i, j) ∈ gridPoints c.alphas.length c.betas.length := List.mem_of_getElem? hk
  obtain ⟨a, hA, b, hB, hab⟩ := hfail
  obtain ⟨i', hi', rfl⟩ := List.getElem_of_mem hA
  obtain ⟨j', hj', rfl⟩ := List.getElem_of_mem hB
  have hm' : (i', j') ∈ gridPoints c.alphas.length c.betas.length := mem_gridPoints.2 ⟨hi', hj'⟩
  have hnone : none ∈ (gridPoints c.alphas.length c.betas.length).map rep.grid := by
    refine List.mem_map.2 ⟨_, hm', ?_⟩
    rw [hg _ hm', predict_eq hn solve (List.getElem?_eq_getElem hi') (List.getElem?_eq_getElem hj'), hab]
    rfl
  obtain ⟨h1, _⟩ := (npArgmax_spec harg).1 hnone
  rw [List.getElem?_map, hk] at h1
  simp only [Option.map_some, Option.some.injEq] at h1
  refine ⟨by rw [hsc, h1], ?_⟩
  rw [hg _ hmem, predict_eq hn solve ha hb] at h1
  cases hx : solve (Spec.evaluatedAt c others rep.alpha rep.beta) with
  | none => rfl
  | some x => rw [hx] at h1; simp at h1

example : ∃ rep, rSquared exGrid (fun d => if d.lookup "alpha" = some 0 ∧ d.lookup "beta" = some 10 then none else exGridSolve d)
    [1, 2, 3] [9, 9, 9] = some rep ∧ rep.alpha = 0 ∧ rep.beta = 1 ∧ rep.score = none := by
  cases h : rSquared exGrid (fun d => if d.lookup "alpha" = some 0 ∧ d.lookup "beta" = some 10 then none else exGridSolve d)
    [1, 2, 3] [9, 9, 9] with
  | none => revert h; decide +kernel
  | some rep =>
    have h1 : (rSquared exGrid (fun d => if d.lookup "alpha" = some 0 ∧ d.lookup "beta" = some 10 then none else exGridSolve d)
      [1, 2, 3] [9, 9, 9]).map (fun r => (r.alpha, r.beta, r.score)) = some (0, 1, none) := by decide +kernel
    rw [h] at h1
    simp only [Option.map_some, Option.some.injEq, Prod.mk.injEq] at h1
    exact ⟨rep, rfl, h1⟩

/-- C121: with the solver, the reported scaled `beta` is not the one the model was run with: there is a search whose reported score is
that of another prediction. -/
theorem C121_solver_scale_false : ¬ ∀ (c : GridConfig) (solve : List (String × ℚ) → Option (List ℚ)) (w fallback : List ℚ)
    (rep : GridReport), c.names = ["alpha", "beta"] → rSquared c solve w fallback = some rep →
    (∀ d, (solve d).isSome) →
    (solve (Spec.modelAt [] c.default rep.alpha rep.scaledBeta)).map (r2Score w) = rep.score := by
  intro hA
  let c : GridConfig := { exGrid with
    method := .solver
    names := ["alpha", "beta"]
    betas := [1]
    alphas := [0] }
  let solve : List (String × ℚ) → Option (List ℚ) := fun d => some (if d.lookup "beta" = some 1 then [1, 2, 2] else [3, 2, 1])
  have h1 : (rSquared c solve [1, 2, 3] [9, 9, 9]).map (fun r => (r.alpha, r.scaledBeta, r.score)) = some (0, 10, some (1 / 2)) := by
    decide +kernel
  cases h : rSquared c solve [1, 2, 3] [9, 9, 9] with
  | none => rw [h] at h1; simp at h1
  | some rep =>
    rw [h] at h1
    simp only [Option.map_some, Option.some.injEq, Prod.mk.injEq] at h1
    have := hA c solve [1, 2, 3] [9, 9, 9] rep rfl h (fun _ => rfl)
    rw [h1.1, h1.2.1, h1.2.2] at this
    revert this
    decide +kernel

/-- C121: the names must be listed as `alpha`, `beta`: listed the other way round, the values of `alpha` are given to `beta` and
conversely. -/
theorem C121_swapped_names (default : String → ℚ) (others : List String) (a b : ℚ) :
    gridParams ("beta" :: "alpha" :: others) default a b =
      some (("beta", a) :: ("alpha", b) :: others.map fun n => (n, default n)) := by
  unfold gridParams
  rw [if_neg (by simp)]
  simp only [List.map_cons, List.set_cons_zero, List.set_cons_succ, List.zip_cons_cons, Option.some.injEq,
    List.cons.injEq, true_and]
  rw [List.zip_map_right]
  induction others with
  | nil => rfl
  | cons n r ih => simp_all

/-- C121: a configuration that declares the range of `beta` first fails unless both ranges have the same number of values. -/
theorem C121_declared_order (c : GridConfig) (solve : List (String × ℚ) → Option (List ℚ)) (w fallback : List ℚ)
    (hb : c.betaFirst = true) (hne : c.alphas.length ≠ c.betas.length) : rSquared c solve w fallback = none := by
  cases h : rSquared c solve w fallback with
  | none => rfl
  | some rep =>
    exfalso
    obtain ⟨i, j, k, ha, hbb, hs, hg, hsc, hk, harg, s, hl, _⟩ := rSquared_core h
    obtain ⟨g1, _, _⟩ := gridLoop_grid (gridPoints_nodup _ _) hl
    have hi : i < c.alphas.length := (List.getElem?_eq_some_iff.1 ha).1
    have hj : j < c.betas.length := (List.getElem?_eq_some_iff.1 hbb).1
    have hl1 := g1 (c.alphas.length - 1, 0) (mem_gridPoints.2 ⟨by simp; omega, by simp; omega⟩)
    have hl2 := g1 (0, c.betas.length - 1) (mem_gridPoints.2 ⟨by simp; omega, by simp; omega⟩)
    unfold GridConfig.shape at hl1 hl2
    rw [if_pos hb] at hl1 hl2
    simp only at hl1 hl2
    omega

/-- C121: otherwise, with non-empty ranges and at least two learned parameters, the search ends with a report. -/
theorem C121_succeeds (c : GridConfig) (solve : List (String × ℚ) → Option (List ℚ)) (w fallback : List ℚ)
    (hb : c.betaFirst = false) (hn : 2 ≤ c.names.length) (h1 : c.alphas ≠ []) (h2 : c.betas ≠ []) :
    ∃ rep, rSquared c solve w fallback = some rep := by
  have hsh : c.shape = (c.alphas.length, c.betas.length) := by unfold GridConfig.shape; rw [if_neg (by simp [hb])]
  have hl1 : 0 < c.alphas.length := List.length_pos_iff.2 h1
  have hl2 : 0 < c.betas.length := List.length_pos_iff.2 h2
  unfold rSquared
  rw [if_neg (by omega), hsh]
  obtain ⟨s, hs⟩ := gridLoop_succeeds (shape := (c.alphas.length, c.betas.length)) (predict := c.predict solve) (w := w)
    (L := gridPoints c.alphas.length c.betas.length) (fun p hp => mem_gridPoints.1 hp) ⟨0, fallback, fun _ => some 0⟩
  simp only [hs]
  have hne : (gridPoints c.alphas.length c.betas.length).map s.grid ≠ [] := by
    intro hc
    have := congrArg List.length hc
    rw [List.length_map, gridPoints_length, List.length_nil] at this
    have := Nat.mul_pos hl1 hl2
    omega
  obtain ⟨k, hk⟩ := npArgmax_some hne
  have hlt := npArgmax_lt hk
  rw [List.length_map, gridPoints_length] at hlt
  simp only [hk]
  rw [List.getElem?_eq_getElem (Nat.div_lt_of_lt_mul (by rw [Nat.mul_comm]; exact hlt)), List.getElem?_eq_getElem (Nat.mod_lt _ hl2)]
  exact ⟨_, rfl⟩

example : exGrid.betaFirst = false ∧ 2 ≤ exGrid.names.length ∧ exGrid.alphas ≠ [] ∧ exGrid.betas ≠ [] := by decide

/-! ## C122 -/

/-- The targets at the pairs, when all are comparable. -/
theorem targetLoop_spec {names : List String} {default : String → ℚ} {bmax : ℚ} {target : List (String × ℚ) → Option ℚ}
    {others : List String} (hn : names = "alpha" :: "beta" :: others) (L : List (ℚ × ℚ)) (s : Option (List (String × ℚ) × ℚ)) :
    match targetLoop names default bmax target L s with
    | none => s = none ∧ ∀ p ∈ L, target (Spec.modelAt others default p.1 (p.2 * bmax)) = none
    | some (d, t) => (∀ p ∈ L, ∀ u, target (Spec.modelAt others default p.1 (p.2 * bmax)) = some u → u ≤ t) ∧
        (∀ e u, s = some (e, u) → u ≤ t) ∧
        (s = some (d, t) ∨ ∃ p ∈ L, d = Spec.modelAt others default p.1 (p.2 * bmax) ∧ target d = some t) := by
  subst hn
  induction L generalizing s with
  | nil =>
    unfold targetLoop
    cases s with
    | none => simp
    | some dt =>
      obtain ⟨d, t⟩ := dt
      simp
  | cons p r ih =>
    obtain ⟨a, b⟩ := p
    unfold targetLoop
    rw [gridParams_ordered]
    simp only
    cases ht : target (Spec.modelAt others default a (b * bmax)) with
    | none =>
      simp only
      have := ih s
      revert this
      cases targetLoop ("alpha" :: "beta" :: others) default bmax target r s with
      | none =>
        rintro ⟨h1, h2⟩
        refine ⟨h1, ?_⟩
        intro p hp
        rcases List.mem_cons.1 hp with rfl | hp
        · exact ht
        · exact h2 p hp
      | some dt =>
        obtain ⟨d, t⟩ := dt
        rintro ⟨h1, h2, h3⟩
        refine ⟨?_, h2, ?_⟩
        · intro p hp u hu
          rcases List.mem_cons.1 hp with rfl | hp
          · rw [ht] at hu; simp at hu
          · exact h1 p hp u hu
        · rcases h3 with h3 | ⟨p, hp, h4, h5⟩
          · exact Or.inl h3
          · exact Or.inr ⟨p, List.mem_cons_of_mem _ hp, h4, h5⟩
    | some t0 =>
      cases s with
      | none =>
        simp only
        have := ih (some (Spec.modelAt others default a (b * bmax), t0))
        revert this
        cases targetLoop ("alpha" :: "beta" :: others) default bmax target r (some (Spec.modelAt others default a (b * bmax), t0)) with
        | none => rintro ⟨h1, _⟩; simp at h1
        | some dt =>
          obtain ⟨d, t⟩ := dt
          rintro ⟨h1, h2, h3⟩
          refine ⟨?_, by simp, ?_⟩
          · intro p hp u hu
            rcases List.mem_cons.1 hp with rfl | hp
            · rw [ht] at hu; simp only [Option.some.injEq] at hu; subst hu; exact h2 _ _ rfl
            · exact h1 p hp u hu
          · rcases h3 with h3 | ⟨p, hp, h4, h5⟩
            · simp only [Option.some.injEq, Prod.mk.injEq] at h3
              obtain ⟨rfl, rfl⟩ := h3
              exact Or.inr ⟨(a, b), List.mem_cons_self, rfl, ht⟩
            · exact Or.inr ⟨p, List.mem_cons_of_mem _ hp, h4, h5⟩
      | some dt' =>
        obtain ⟨d', t'⟩ := dt'
        simp only
        by_cases hlt : t' < t0
        · rw [if_pos hlt]
          have := ih (some (Spec.modelAt others default a (b * bmax), t0))
          revert this
          cases targetLoop ("alpha" :: "beta" :: others) default bmax target r (some (Spec.modelAt others default a (b * bmax), t0)) with
          | none => rintro ⟨h1, _⟩; simp at h1
          | some dt =>
            obtain ⟨d, t⟩ := dt
            rintro ⟨h1, h2, h3⟩
            refine ⟨?_, ?_, ?_⟩
            · intro p hp u hu
              rcases List.mem_cons.1 hp with rfl | hp
              · rw [ht] at hu; simp only [Option.some.injEq] at hu; subst hu; exact h2 _ _ rfl
              · exact h1 p hp u hu
            · intro e u hu
              simp only [Option.some.injEq, Prod.mk.injEq] at hu
              obtain ⟨_, rfl⟩ := hu
              exact le_trans (le_of_lt hlt) (h2 _ _ rfl)
            · rcases h3 with h3 | ⟨p, hp, h4, h5⟩
              · simp only [Option.some.injEq, Prod.mk.injEq] at h3
                obtain ⟨rfl, rfl⟩ := h3
                exact Or.inr ⟨(a, b), List.mem_cons_self, rfl, ht⟩
              · exact Or.inr ⟨p, List.mem_cons_of_mem _ hp, h4, h5⟩
        · rw [if_neg hlt]
          have := ih (some (d', t'))
          revert this
          cases targetLoop ("alpha" :: "beta" :: others) default bmax target r (some (d', t')) with
          | none => rintro ⟨h1, _⟩; simp at h1
          | some dt =>
            obtain ⟨d, t⟩ := dt
            rintro ⟨h1, h2, h3⟩
            refine ⟨?_, h2, ?_⟩
            · intro p hp u hu
              rcases List.mem_cons.1 hp with rfl | hp
              · rw [ht] at hu
                simp only [Option.some.injEq] at hu
                subst hu
                exact le_trans (not_lt.1 hlt) (h2 _ _ rfl)
              · exact h1 p hp u hu
            · rcases h3 with h3 | ⟨p, hp, h4, h5⟩
              · exact Or.inl h3
              · exact Or.inr ⟨p, List.mem_cons_of_mem _ hp, h4, h5⟩

theorem mem_gridPairs {alphas betas : List ℚ} {p : ℚ × ℚ} : p ∈ gridPairs alphas betas ↔ p.1 ∈ alphas ∧ p.2 ∈ betas := by
  unfold gridPairs
  constructor
  · intro h
    simp only [List.mem_flatMap, List.mem_map] at h
    obtain ⟨a, ha, b, hb, rfl⟩ := h
    exact ⟨ha, hb⟩
  · rintro ⟨h1, h2⟩
    simp only [List.mem_flatMap, List.mem_map]
    exact ⟨p.1, h1, p.2, h2, rfl⟩

/-- C122: the reported log target is the largest over the grid and is attained at the reported parameters, `beta` being reported
multiplied by `bmax`. -/
theorem C122_maximum (others : List String) (default : String → ℚ) (bmax : ℚ) (alphas betas : List ℚ)
    (target : List (String × ℚ) → Option ℚ) (rep : TargetReport)
    (h : logTarget ("alpha" :: "beta" :: others) default bmax alphas betas target = some rep) :
    rep.alpha ∈ alphas ∧ (∃ b ∈ betas, rep.beta = b * bmax) ∧
    target (Spec.modelAt others default rep.alpha rep.beta) = some rep.target ∧
    ∀ a ∈ alphas, ∀ b ∈ betas, ∀ t, target (Spec.modelAt others default a (b * bmax)) = some t → t ≤ rep.target := by
  unfold logTarget at h
  rw [if_neg (by simp)] at h
  have hs := targetLoop_spec (names := "alpha" :: "beta" :: others) (default := default) (bmax := bmax) (target := target) rfl
    (gridPairs alphas betas) none
  revert hs h
  cases targetLoop ("alpha" :: "beta" :: others) default bmax target (gridPairs alphas betas) none with
  | none => intro h; simp at h
  | some dt =>
    obtain ⟨d, t⟩ := dt
    simp only
    rintro h ⟨h1, _, h3⟩
    rcases h3 with h3 | ⟨p, hp, rfl, h5⟩
    · simp at h3
    · simp [Spec.modelAt, List.lookup] at h
      subst h
      obtain ⟨hp1, hp2⟩ := mem_gridPairs.1 hp
      exact ⟨hp1, ⟨p.2, hp2, rfl⟩, h5, fun a ha b hb u hu => h1 (a, b) (mem_gridPairs.2 ⟨ha, hb⟩) u hu⟩

/-- C122: the search fails exactly if no grid point has a comparable target. -/
theorem C122_succeeds (others : List String) (default : String → ℚ) (bmax : ℚ) (alphas betas : List ℚ)
    (target : List (String × ℚ) → Option ℚ) :
    (∃ rep, logTarget ("alpha" :: "beta" :: others) default bmax alphas betas target = some rep) ↔
      ∃ a ∈ alphas, ∃ b ∈ betas, (target (Spec.modelAt others default a (b * bmax))).isSome := by
  have hs := targetLoop_spec (names := "alpha" :: "beta" :: others) (default := default) (bmax := bmax) (target := target) rfl
    (gridPairs alphas betas) none
  constructor
  · rintro ⟨rep, h⟩
    obtain ⟨ha, ⟨b, hb, hbe⟩, ht, _⟩ := C122_maximum others default bmax alphas betas target rep h
    exact ⟨rep.alpha, ha, b, hb, by rw [← hbe, ht]; rfl⟩
  · rintro ⟨a, ha, b, hb, hsome⟩
    unfold logTarget
    rw [if_neg (by simp)]
    revert hs
    cases targetLoop ("alpha" :: "beta" :: others) default bmax target (gridPairs alphas betas) none with
    | none =>
      rintro ⟨_, h2⟩
      rw [h2 (a, b) (mem_gridPairs.2 ⟨ha, hb⟩)] at hsome
      simp at hsome
    | some dt =>
      obtain ⟨d, t⟩ := dt
      rintro ⟨_, _, h3⟩
      rcases h3 with h3 | ⟨p, hp, rfl, h5⟩
      · simp at h3
      · simp [Spec.modelAt, List.lookup]

/-- C122: the scaled value is the reported one divided by `bmax`, so `fitted_beta` is the larger of the two when `bmax > 1`. -/
theorem C122_scales (others : List String) (default : String → ℚ) (bmax : ℚ) (hb : bmax ≠ 0) (alphas betas : List ℚ)
    (target : List (String × ℚ) → Option ℚ) (rep : TargetReport)
    (h : logTarget ("alpha" :: "beta" :: others) default bmax alphas betas target = some rep) :
    rep.scaledBeta ∈ betas ∧ rep.beta = rep.scaledBeta * bmax := by
  obtain ⟨_, ⟨b, hbb, hbe⟩, _⟩ := C122_maximum others default bmax alphas betas target rep h
  have : rep.scaledBeta = rep.beta / bmax := by
    unfold logTarget at h
    split at h
    · simp at h
    · split at h
      · simp at h
      · split at h
        · simp only [Option.some.injEq] at h; subst h; rfl
        · simp at h
  have e : rep.scaledBeta = b := by rw [this, hbe]; field_simp
  exact ⟨e ▸ hbb, by rw [e, hbe]⟩

/-- A target that is largest at the grid point (1, 1), where `beta` is 10. -/
def exTarget : List (String × ℚ) → Option ℚ
  | (_, a) :: (_, b) :: _ => some (a + b)
  | _ => none

example : logTarget ["alpha", "beta", "sigma"] (fun _ => 0) 10 [0, 1] [0, 1] exTarget = some ⟨1, 10, 1, 11⟩ := by decide +kernel

/-- C122: the two analyses do not mean the same by the fitted `beta`: on the same grid, with the same best point, one reports the grid
value and the other `bmax` times it. -/
theorem C122_same_meaning_false : ¬ ∀ (c : GridConfig) (solve : List (String × ℚ) → Option (List ℚ)) (w fallback : List ℚ)
    (rep : GridReport) (target : List (String × ℚ) → Option ℚ) (rep' : TargetReport), c.names = ["alpha", "beta"] →
    c.method = .potential → (∀ d, target d = (solve d).map (r2Score w)) → (∀ d, (solve d).isSome) →
    rSquared c solve w fallback = some rep → logTarget c.names c.default c.bmax c.alphas c.betas target = some rep' →
    rep.beta = rep'.beta := by
  intro hA
  let c : GridConfig := { exGrid with
    names := ["alpha", "beta"]
    betas := [1]
    alphas := [0] }
  have h1 : (rSquared c (fun _ => some [1, 2, 2]) [1, 2, 3] [9, 9, 9]).map (fun r => r.beta) = some 1 := by decide +kernel
  have h2 : logTarget c.names c.default c.bmax c.alphas c.betas (fun _ => some (1 / 2)) = some ⟨0, 10, 1, 1 / 2⟩ := by decide +kernel
  cases h : rSquared c (fun _ => some [1, 2, 2]) [1, 2, 3] [9, 9, 9] with
  | none => rw [h] at h1; simp at h1
  | some rep =>
    rw [h] at h1
    simp only [Option.map_some, Option.some.injEq] at h1
    have := hA c (fun _ => some [1, 2, 2]) [1, 2, 3] [9, 9, 9] rep (fun _ => some (1 / 2)) _ rfl rfl
      (by intro d; decide +kernel) (fun _ => rfl) h h2
    rw [h1] at this
    revert this
    decide +kernel

end GeNSIT
