import Verif.Sampler.Annealing
import Mathlib.LinearAlgebra.Matrix.Block
import Mathlib.Analysis.Complex.ExponentialBounds
import Mathlib.Analysis.Real.Pi.Bounds

/-!
# C153: the saddle-point value of 1/z

`biased_z_inverse` (`gensit/learning_models/HarrisWilsonModel_MCMC.py:457-541`), used when the noise is low and by the log-target grid
search (`gensit/experiments.py:1225-1268`).
-/

set_option linter.unusedSectionVars false
set_option linter.unusedVariables false

namespace GeNSIT

open MeasureTheory ENNReal Matrix

variable {J : ℕ}

/-! ## Model -/

/-- Row `i` of the matrix of starting points: `log δ · 1 - log δ · I + log(1+δ) · I` (lines 474-475), for `δ > 0`. -/
noncomputable def saddleStart (delta : ℝ) (i j : Fin J) : ℝ :=
  Real.log delta * 1 - Real.log delta * (if i = j then 1 else 0) + Real.log (1 + delta) * (if i = j then 1 else 0)

/-- `np.argmin`: the first index of the smallest entry (line 502). -/
noncomputable def firstArgmin (fs : List ℝ) : Option (ℕ × ℝ) :=
  match fs with
  | [] => none
  | f :: fs => match firstArgmin fs with
    | none => some (0, f)
    | some (k, v) => if v < f then some (k + 1, v) else some (0, f)

/-- `biased_z_inverse` (lines 457-541).  The optimiser (`scipy.optimize.minimize`, `math_utils.py:133-151`), the Hessian (autograd) and
the Cholesky factorisation (`torch.linalg.cholesky`) are arguments; `none` is an exception: an optimisation that failed, no destination,
or a Hessian that is not positive definite.  The process pool and the tensor conversions are not modelled. -/
noncomputable def biasedZInverse (delta : ℝ) (opt : (Fin J → ℝ) → Option (Fin J → ℝ)) (V : (Fin J → ℝ) → ℝ)
    (hess : (Fin J → ℝ) → Matrix (Fin J) (Fin J) ℝ) (chol : Matrix (Fin J) (Fin J) ℝ → Option (Matrix (Fin J) (Fin J) ℝ)) :
    Option (ℝ × ℝ) := do
  let xs ← (List.finRange J).mapM fun i => opt (saddleStart delta i)
  let (k, f) ← firstArgmin (xs.map V)
  let x ← xs[k]?
  let L ← chol (hess x)
  return (f + ∑ j, Real.log (L j j), 1)

/-- `log_target = log_z_inverse - potential_func - lap_c1` (`experiments.py:1226-1268`). -/
noncomputable def saddleLogTarget (J : ℕ) (logZInv pot : ℝ) : ℝ := logZInv - pot - 0.5 * J * Real.log (2 * Real.pi)

/-! ## Specification -/

/-- `L` is a Cholesky factor of `A`. -/
def Spec.IsCholesky (A L : Matrix (Fin J) (Fin J) ℝ) : Prop :=
  (∀ i j, i < j → L i j = 0) ∧ (∀ j, 0 < L j j) ∧ L * Lᵀ = A

/-- A function that returns a Cholesky factor when it returns. -/
def Spec.CholeskySound (chol : Matrix (Fin J) (Fin J) ℝ → Option (Matrix (Fin J) (Fin J) ℝ)) : Prop :=
  ∀ A L, chol A = some L → Spec.IsCholesky A L

/-- A quadratic potential with minimum `c` at `mu` and Hessian `A`. -/
noncomputable def Spec.quadratic (c : ℝ) (mu : Fin J → ℝ) (A : Matrix (Fin J) (Fin J) ℝ) (x : Fin J → ℝ) : ℝ :=
  c + (∑ i, ∑ j, (x i - mu i) * A i j * (x j - mu j)) / 2

/-- `hess` is the Hessian of `V`. -/
def Spec.IsHessian (V : (Fin J → ℝ) → ℝ) (hess : (Fin J → ℝ) → Matrix (Fin J) (Fin J) ℝ) : Prop :=
  ∃ grad : (Fin J → ℝ) → (Fin J → ℝ), (∀ x j, HasDerivAt (fun t => V (Function.update x j t)) (grad x j) (x j)) ∧
    ∀ x i j, HasDerivAt (fun t => grad (Function.update x j t) i) (hess x i j) (x j)

/-! ## Lemmas -/

theorem firstArgmin_spec : ∀ (fs : List ℝ) (k : ℕ) (v : ℝ), firstArgmin fs = some (k, v) →
    fs[k]? = some v ∧ (∀ w ∈ fs, v ≤ w) ∧ ∀ (i : ℕ) (w : ℝ), i < k → fs[i]? = some w → v < w := by
  intro fs
  induction fs with
  | nil => intro k v h; simp [firstArgmin] at h
  | cons f fs ih =>
    intro k v h
    simp only [firstArgmin] at h
    cases hr : firstArgmin fs with
    | none =>
      rw [hr] at h
      simp only [Option.some.injEq, Prod.mk.injEq] at h
      obtain ⟨rfl, rfl⟩ := h
      have : fs = [] := by
        cases fs with
        | nil => rfl
        | cons g gs =>
          simp only [firstArgmin] at hr
          cases hg : firstArgmin gs with
          | none => rw [hg] at hr; simp at hr
          | some q => rw [hg] at hr; simp only at hr; split at hr <;> simp at hr
      subst this
      simp
    | some q =>
      obtain ⟨k', v'⟩ := q
      rw [hr] at h
      simp only at h
      obtain ⟨h1, h2, h3⟩ := ih k' v' hr
      split at h
      · next hlt =>
        simp only [Option.some.injEq, Prod.mk.injEq] at h
        obtain ⟨rfl, rfl⟩ := h
        refine ⟨by simpa using h1, ?_, ?_⟩
        · intro w hw
          rcases List.mem_cons.1 hw with rfl | hw
          · exact hlt.le
          · exact h2 w hw
        · intro i w hi hw
          cases i with
          | zero => simp at hw; rw [← hw]; exact hlt
          | succ i => exact h3 i w (by omega) (by simpa using hw)
      · next hge =>
        simp only [Option.some.injEq, Prod.mk.injEq] at h
        obtain ⟨rfl, rfl⟩ := h
        refine ⟨by simp, ?_, ?_⟩
        · intro w hw
          rcases List.mem_cons.1 hw with rfl | hw
          · exact le_rfl
          · exact le_trans (not_lt.1 hge) (h2 w hw)
        · intro i w hi
          omega

theorem mapM_finRange {α : Type} (f : Fin J → Option α) (xs : List α) (h : (List.finRange J).mapM f = some xs) :
    xs.length = J ∧ ∀ i : Fin J, ∃ x, f i = some x ∧ xs[(i : ℕ)]? = some x := by
  have key : ∀ (l : List (Fin J)) (ys : List α), l.mapM f = some ys → ys.length = l.length ∧
      ∀ (k : ℕ) (i : Fin J), l[k]? = some i → ∃ x, f i = some x ∧ ys[k]? = some x := by
    intro l
    induction l with
    | nil => intro ys hy; simp at hy; subst hy; simp
    | cons a l ih =>
      intro ys hy
      simp only [List.mapM_cons, Option.bind_eq_bind, Option.bind_eq_some_iff, Option.pure_def, Option.some.injEq] at hy
      obtain ⟨b, hb, bs, hbs, rfl⟩ := hy
      obtain ⟨h1, h2⟩ := ih bs hbs
      refine ⟨by simp [h1], ?_⟩
      intro k i hk
      cases k with
      | zero => simp at hk; subst hk; exact ⟨b, hb, by simp⟩
      | succ k => exact h2 k i (by simpa using hk)
  obtain ⟨h1, h2⟩ := key _ xs h
  refine ⟨by simpa using h1, fun i => h2 i i ?_⟩
  simp

theorem cholesky_logdet (A L : Matrix (Fin J) (Fin J) ℝ) (h : Spec.IsCholesky A L) :
    0 < L.det ∧ L.det = ∏ j, L j j ∧ A.det = L.det ^ 2 := by
  obtain ⟨h1, h2, h3⟩ := h
  have hd : L.det = ∏ j, L j j := by
    refine det_of_isLowerTriangular L ?_
    intro i j hij
    exact h1 i j hij
  refine ⟨?_, hd, ?_⟩
  · rw [hd]; exact Finset.prod_pos fun j _ => h2 j
  · rw [← h3, det_mul, det_transpose, pow_two]


theorem normaliser_kinetic : Spec.normaliser (Spec.kinetic : (Fin J → ℝ) → ℝ) = ENNReal.ofReal (Real.sqrt (2 * Real.pi) ^ J) := by
  have h1 : momentumLaw (Fin J) Set.univ = 1 := measure_univ
  have hm : Measurable (Spec.kinetic : (Fin J → ℝ) → ℝ) := by unfold Spec.kinetic; fun_prop
  rw [momentumLaw_eq, withDensity_apply _ MeasurableSet.univ, setLIntegral_univ] at h1
  simp only [ENNReal.ofReal_mul momC_pos.le] at h1
  rw [lintegral_const_mul _ (by fun_prop)] at h1
  have h2 : Spec.normaliser (Spec.kinetic : (Fin J → ℝ) → ℝ) = (ENNReal.ofReal (momC (Fin J)))⁻¹ := by
    refine ENNReal.eq_inv_of_mul_eq_one_left ?_
    rw [mul_comm]
    exact h1
  rw [h2, ← ENNReal.ofReal_inv_of_pos momC_pos]
  congr 1
  unfold momC
  rw [Finset.prod_const, Finset.card_univ, Fintype.card_fin, ← inv_pow, inv_inv, mul_one]

/-- The Gaussian integral, by the Cholesky factor. -/
theorem normaliser_quadratic (c : ℝ) (mu : Fin J → ℝ) (A L : Matrix (Fin J) (Fin J) ℝ) (h : Spec.IsCholesky A L) :
    Spec.normaliser (Spec.quadratic c mu A) = ENNReal.ofReal (Real.exp (-c) * (Real.sqrt (2 * Real.pi) ^ J / L.det)) := by
  obtain ⟨hpos, _, _⟩ := cholesky_logdet A L h
  have hdet : Lᵀ.det ≠ 0 := by rw [det_transpose]; exact hpos.ne'
  have hm : Measurable (Spec.kinetic : (Fin J → ℝ) → ℝ) := by unfold Spec.kinetic; fun_prop
  have hq : ∀ y : Fin J → ℝ, Spec.quadratic c mu A (y + mu) = c + Spec.kinetic (Matrix.toLin' Lᵀ y) := by
    intro y
    unfold Spec.quadratic Spec.kinetic
    congr 2
    simp only [Pi.add_apply, add_sub_cancel_right, Matrix.toLin'_apply, Matrix.mulVec, dotProduct]
    rw [← h.2.2]
    simp only [Matrix.mul_apply, Matrix.transpose_apply]
    simp only [Finset.mul_sum, Finset.sum_mul]
    rw [Finset.sum_comm' (t' := Finset.univ) (s' := fun _ => Finset.univ) (by simp)]
    have : ∀ k : Fin J, ∑ x, ∑ i, L i k * y i * (L x k * y x) = ∑ i, ∑ x, y i * (L i k * L x k) * y x := by
      intro k
      rw [Finset.sum_comm]
      refine Finset.sum_congr rfl fun i _ => Finset.sum_congr rfl fun x _ => ?_
      ring
    simp only [this]
    calc ∑ j, ∑ i, ∑ k, y i * (L i k * L j k) * y j = ∑ i, ∑ j, ∑ k, y i * (L i k * L j k) * y j := Finset.sum_comm
      _ = ∑ i, ∑ k, ∑ j, y i * (L i k * L j k) * y j := Finset.sum_congr rfl fun i _ => Finset.sum_comm
      _ = ∑ k, ∑ i, ∑ j, y i * (L i k * L j k) * y j := Finset.sum_comm
  unfold Spec.normaliser
  rw [← lintegral_add_right_eq_self _ mu]
  simp only [hq]
  have hlin : Measurable (Matrix.toLin' Lᵀ) := (Matrix.toLin' Lᵀ).continuous_of_finiteDimensional.measurable
  have hf : Measurable fun z : Fin J → ℝ => ENNReal.ofReal (Real.exp (-(c + Spec.kinetic z))) := by fun_prop
  rw [← lintegral_map hf hlin, Real.map_matrix_volume_pi_eq_smul_volume_pi hdet, lintegral_smul_measure]
  have hk := normaliser_kinetic (J := J)
  unfold Spec.normaliser at hk
  have e : ∀ z : Fin J → ℝ, ENNReal.ofReal (Real.exp (-(c + Spec.kinetic z))) =
      ENNReal.ofReal (Real.exp (-c)) * ENNReal.ofReal (Real.exp (-Spec.kinetic z)) := by
    intro z
    rw [← ENNReal.ofReal_mul (Real.exp_nonneg _), ← Real.exp_add, neg_add]
  simp only [e]
  rw [lintegral_const_mul _ (by fun_prop), hk, smul_eq_mul, ← ENNReal.ofReal_mul (Real.exp_nonneg _), ← ENNReal.ofReal_mul (by positivity),
    det_transpose, abs_of_pos (by positivity)]
  congr 1
  field_simp

/-! ## C153 -/

/-- **C153.** The starting points: one destination at `log(1+δ)`, the others at `log δ`. -/
theorem C153_starts (delta : ℝ) (i j : Fin J) : saddleStart delta i j = if i = j then Real.log (1 + delta) else Real.log delta := by
  unfold saddleStart
  split <;> simp

/-- **C153.** What is returned: the sign 1, and the potential at the best of the optimisation results (the first one among ties) plus half the
logarithm of the determinant of the Hessian there. -/
theorem C153_value (delta : ℝ) (opt : (Fin J → ℝ) → Option (Fin J → ℝ)) (V : (Fin J → ℝ) → ℝ)
    (hess : (Fin J → ℝ) → Matrix (Fin J) (Fin J) ℝ) (chol : Matrix (Fin J) (Fin J) ℝ → Option (Matrix (Fin J) (Fin J) ℝ))
    (hc : Spec.CholeskySound chol) (v sign : ℝ) (h : biasedZInverse delta opt V hess chol = some (v, sign)) :
    sign = 1 ∧ ∃ (i : Fin J) (x : Fin J → ℝ), opt (saddleStart delta i) = some x ∧
      (∀ i' : Fin J, ∃ x', opt (saddleStart delta i') = some x' ∧ V x ≤ V x' ∧ (i' < i → V x < V x')) ∧
      0 < (hess x).det ∧ v = V x + Real.log (hess x).det / 2 := by
  unfold biasedZInverse at h
  simp only [Option.bind_eq_bind, Option.bind_eq_some_iff, Option.pure_def, Option.some.injEq, Prod.mk.injEq] at h
  obtain ⟨xs, hxs, ⟨k, f⟩, hk, x, hx, L, hL, rfl, rfl⟩ := h
  obtain ⟨hlen, hall⟩ := mapM_finRange _ xs hxs
  obtain ⟨h1, h2, h3⟩ := firstArgmin_spec _ _ _ hk
  have hkJ : k < J := by
    rw [← hlen]
    exact (List.getElem?_eq_some_iff.1 hx).1
  have hf : f = V x := by
    rw [List.getElem?_map, hx] at h1
    simpa using h1.symm
  refine ⟨rfl, ⟨k, hkJ⟩, x, ?_, ?_, ?_, ?_⟩
  · obtain ⟨x0, ho, hx0⟩ := hall ⟨k, hkJ⟩
    rw [hx] at hx0
    rw [ho, hx0]
  · intro i'
    obtain ⟨x', ho, hx'⟩ := hall i'
    refine ⟨x', ho, ?_, ?_⟩
    · rw [← hf]
      exact h2 _ (List.mem_map.2 ⟨x', List.mem_of_getElem? hx', rfl⟩)
    · intro hlt
      rw [← hf]
      exact h3 i' (V x') hlt (by rw [List.getElem?_map, hx']; rfl)
  · obtain ⟨hp, _, hA⟩ := cholesky_logdet _ L (hc _ _ hL)
    rw [hA]; positivity
  · obtain ⟨hp, hd, hA⟩ := cholesky_logdet _ L (hc _ _ hL)
    have hch := (hc _ _ hL).2.1
    rw [hA, Real.log_pow, hd, Real.log_prod (fun j _ => (hch j).ne'), hf]
    push_cast
    ring

/-- **C153.** For a quadratic potential, if one of the optimisations finds the minimum, the returned value is the logarithm of 1/z, up to
the constant `(J/2) log 2π` that does not depend on the parameters. -/
theorem C153_exact_quadratic_partial (delta c : ℝ) (mu : Fin J → ℝ) (A : Matrix (Fin J) (Fin J) ℝ)
    (opt : (Fin J → ℝ) → Option (Fin J → ℝ)) (chol : Matrix (Fin J) (Fin J) ℝ → Option (Matrix (Fin J) (Fin J) ℝ))
    (hc : Spec.CholeskySound chol) (hopt : ∃ i, opt (saddleStart delta i) = some mu) (v sign : ℝ)
    (h : biasedZInverse delta opt (Spec.quadratic c mu A) (fun _ => A) chol = some (v, sign)) :
    Spec.normaliser (Spec.quadratic c mu A) = ENNReal.ofReal (Real.exp (-(v - (J : ℝ) / 2 * Real.log (2 * Real.pi)))) := by
  obtain ⟨_, i, x, _, hmin, hdet, hv⟩ := C153_value delta opt _ _ chol hc v sign h
  -- the factor
  have hL : ∃ L, Spec.IsCholesky A L := by
    unfold biasedZInverse at h
    simp only [Option.bind_eq_bind, Option.bind_eq_some_iff] at h
    obtain ⟨xs, _, _, _, y, _, L, hL, _⟩ := h
    exact ⟨L, hc _ _ hL⟩
  obtain ⟨L, hL⟩ := hL
  obtain ⟨hp, hd, hA⟩ := cholesky_logdet A L hL
  -- the value at the reported minimum is the minimum
  have hge : ∀ y, c ≤ Spec.quadratic c mu A y := by
    intro y
    have hq : Spec.quadratic c mu A y = c + Spec.kinetic (fun k => ∑ i, L i k * (y i - mu i)) := by
      unfold Spec.quadratic Spec.kinetic
      congr 2
      rw [← hL.2.2]
      simp only [Matrix.mul_apply, Matrix.transpose_apply, Finset.mul_sum, Finset.sum_mul]
      calc ∑ i, ∑ j, ∑ k, (y i - mu i) * (L i k * L j k) * (y j - mu j)
          = ∑ i, ∑ k, ∑ j, (y i - mu i) * (L i k * L j k) * (y j - mu j) := Finset.sum_congr rfl fun i _ => Finset.sum_comm
        _ = ∑ k, ∑ i, ∑ j, (y i - mu i) * (L i k * L j k) * (y j - mu j) := Finset.sum_comm
        _ = _ := by
          refine Finset.sum_congr rfl fun k _ => ?_
          rw [Finset.sum_comm]
          refine Finset.sum_congr rfl fun i _ => Finset.sum_congr rfl fun j _ => ?_
          ring
    rw [hq]
    have : 0 ≤ Spec.kinetic (fun k => ∑ i, L i k * (y i - mu i)) := by
      unfold Spec.kinetic
      have : 0 ≤ ∑ k : Fin J, (∑ i, L i k * (y i - mu i)) * (∑ i, L i k * (y i - mu i)) :=
        Finset.sum_nonneg fun k _ => mul_self_nonneg _
      linarith
    linarith
  have hx : Spec.quadratic c mu A x = c := by
    obtain ⟨i', hi'⟩ := hopt
    obtain ⟨x', hx', hle, _⟩ := hmin i'
    rw [hi'] at hx'
    obtain rfl := Option.some.inj hx'
    have : Spec.quadratic c mu A mu = c := by simp [Spec.quadratic]
    exact le_antisymm (hle.trans_eq this) (hge x)
  rw [normaliser_quadratic c mu A L hL]
  congr 1
  rw [hv, hx, hA, Real.log_pow]
  have hs : Real.sqrt (2 * Real.pi) ^ J = Real.exp ((J : ℝ) / 2 * Real.log (2 * Real.pi)) := by
    rw [← Real.exp_log (Real.sqrt_pos.2 (by positivity : 0 < 2 * Real.pi)), ← Real.exp_nat_mul, Real.log_sqrt (by positivity)]
    congr 1
    ring
  rw [hs, ← Real.exp_log hp, ← Real.exp_sub, ← Real.exp_add, Real.exp_log hp]
  congr 1
  push_cast
  ring

/-- **C153.** Hence the log target of the grid search is, for a quadratic potential, exactly the log density of the data. -/
theorem C153_log_density_partial (delta c : ℝ) (mu : Fin J → ℝ) (A : Matrix (Fin J) (Fin J) ℝ)
    (opt : (Fin J → ℝ) → Option (Fin J → ℝ)) (chol : Matrix (Fin J) (Fin J) ℝ → Option (Matrix (Fin J) (Fin J) ℝ))
    (hc : Spec.CholeskySound chol) (hopt : ∃ i, opt (saddleStart delta i) = some mu) (v sign : ℝ)
    (h : biasedZInverse delta opt (Spec.quadratic c mu A) (fun _ => A) chol = some (v, sign)) (x : Fin J → ℝ) :
    ENNReal.ofReal (Real.exp (saddleLogTarget J v (Spec.quadratic c mu A x))) =
      ENNReal.ofReal (Real.exp (-Spec.quadratic c mu A x)) / Spec.normaliser (Spec.quadratic c mu A) := by
  rw [C153_exact_quadratic_partial delta c mu A opt chol hc hopt v sign h, ← ENNReal.ofReal_div_of_pos (Real.exp_pos _), ← Real.exp_sub]
  congr 2
  unfold saddleLogTarget
  ring

/-- **C153.** Hence two parameter values are compared, for quadratic potentials, by the ratio of their normalising constants. -/
theorem C153_compare_partial (delta c c' : ℝ) (mu mu' : Fin J → ℝ) (A A' : Matrix (Fin J) (Fin J) ℝ)
    (opt opt' : (Fin J → ℝ) → Option (Fin J → ℝ)) (chol : Matrix (Fin J) (Fin J) ℝ → Option (Matrix (Fin J) (Fin J) ℝ))
    (hc : Spec.CholeskySound chol) (hopt : ∃ i, opt (saddleStart delta i) = some mu) (hopt' : ∃ i, opt' (saddleStart delta i) = some mu')
    (v v' sign sign' : ℝ) (h : biasedZInverse delta opt (Spec.quadratic c mu A) (fun _ => A) chol = some (v, sign))
    (h' : biasedZInverse delta opt' (Spec.quadratic c' mu' A') (fun _ => A') chol = some (v', sign')) :
    ENNReal.ofReal (Real.exp (v' - v)) =
      Spec.normaliser (Spec.quadratic c mu A) / Spec.normaliser (Spec.quadratic c' mu' A') := by
  rw [C153_exact_quadratic_partial delta c mu A opt chol hc hopt v sign h,
    C153_exact_quadratic_partial delta c' mu' A' opt' chol hc hopt' v' sign' h', ← ENNReal.ofReal_div_of_pos (Real.exp_pos _), ← Real.exp_sub]
  congr 2
  ring


theorem hasDerivAt_coord (x : Fin J → ℝ) (j i : Fin J) :
    HasDerivAt (fun t => Function.update x j t i) (if i = j then 1 else 0) (x j) := by
  by_cases h : i = j
  · subst h
    simpa using hasDerivAt_id' (x i)
  · simpa [h] using hasDerivAt_const (x j) (x i)

/-- The matrix of a quadratic potential is its Hessian. -/
theorem quadratic_isHessian (c : ℝ) (mu : Fin J → ℝ) (A : Matrix (Fin J) (Fin J) ℝ) (hA : ∀ i j, A i j = A j i) :
    Spec.IsHessian (Spec.quadratic c mu A) (fun _ => A) := by
  refine ⟨fun x j => ∑ i, A j i * (x i - mu i), ?_, ?_⟩
  · intro x j
    have hu := fun i => (hasDerivAt_coord x j i).sub_const (mu i)
    have h1 : HasDerivAt (fun t => ∑ i, ∑ k, (Function.update x j t i - mu i) * A i k * (Function.update x j t k - mu k))
        (∑ i, ∑ k, ((if i = j then (1 : ℝ) else 0) * A i k * (x k - mu k) + (x i - mu i) * A i k * (if k = j then 1 else 0))) (x j) := by
      refine HasDerivAt.fun_sum fun i _ => HasDerivAt.fun_sum fun k _ => ?_
      refine (((hu i).mul_const (A i k)).fun_mul (hu k)).congr_deriv ?_
      simp
    have h2 := (h1.div_const 2).const_add c
    refine h2.congr_deriv ?_
    simp only [Finset.sum_add_distrib]
    have e1 : ∑ i, ∑ k, (if i = j then (1 : ℝ) else 0) * A i k * (x k - mu k) = ∑ i, A j i * (x i - mu i) := by
      rw [Finset.sum_eq_single j]
      · simp
      · intro b _ hb; simp [hb]
      · simp
    have e2 : ∑ i, ∑ k, (x i - mu i) * A i k * (if k = j then (1 : ℝ) else 0) = ∑ i, A j i * (x i - mu i) := by
      refine Finset.sum_congr rfl fun i _ => ?_
      rw [Finset.sum_eq_single j]
      · rw [hA i j]; simp; ring
      · intro b _ hb; simp [hb]
      · simp
    rw [e1, e2]
    ring
  · intro x i j
    have h1 : HasDerivAt (fun t => ∑ k, A i k * (Function.update x j t k - mu k)) (∑ k, A i k * (if k = j then (1 : ℝ) else 0)) (x j) :=
      HasDerivAt.fun_sum fun k _ => ((hasDerivAt_coord x j k).sub_const (mu k)).const_mul (A i k)
    refine h1.congr_deriv ?_
    rw [Finset.sum_eq_single j]
    · simp
    · intro b _ hb; simp [hb]
    · simp

/-- A factorisation of one-by-one matrices, as `torch.linalg.cholesky` does it. -/
noncomputable def cholOne (A : Matrix (Fin 1) (Fin 1) ℝ) : Option (Matrix (Fin 1) (Fin 1) ℝ) :=
  open Classical in if 0 < A 0 0 then some !![Real.sqrt (A 0 0)] else none

theorem cholOne_sound : Spec.CholeskySound cholOne := by
  intro A L h
  unfold cholOne at h
  split at h
  · next hp =>
    obtain rfl := Option.some.inj h
    refine ⟨?_, ?_, ?_⟩
    · intro i j hij
      have := Subsingleton.elim i j
      exact absurd (this ▸ hij) (lt_irrefl _)
    · intro j
      fin_cases j
      simpa using Real.sqrt_pos.2 hp
    · ext i j
      fin_cases i
      fin_cases j
      simp [Matrix.mul_apply, Real.mul_self_sqrt hp.le]
  · simp at h

/-- The model's own potential with one origin and one destination. -/
noncomputable def demoLow : PotParams := { alpha := 1, beta := 0, delta := 1, kappa := 2, sigma := 2, epsilon := 1 }

theorem demoLow_target : codeTarget demoLow 1 1 (fun _ _ => 0) = fun x => -x 0 + Real.exp (x 0) := by
  funext x
  unfold codeTarget sdePotT lse2 demoLow
  simp [vecOf]
  ring

/-- **C153 is false beyond quadratic potentials**: with the model's own potential (one origin, one destination) and an optimiser that finds the
global minimum, the value is not the logarithm of 1/z up to the constant. -/
theorem C153_exact_false :
    ¬ ∀ (p : PotParams) (I J : ℕ) (cost : ℕ → ℕ → ℝ) (opt : (Fin J → ℝ) → Option (Fin J → ℝ))
        (hess : (Fin J → ℝ) → Matrix (Fin J) (Fin J) ℝ) (chol : Matrix (Fin J) (Fin J) ℝ → Option (Matrix (Fin J) (Fin J) ℝ)) (v sign : ℝ),
      Spec.CholeskySound chol → Spec.IsHessian (codeTarget p I J cost) hess →
      (∀ s x, opt s = some x → ∀ y, codeTarget p I J cost x ≤ codeTarget p I J cost y) →
      biasedZInverse p.delta opt (codeTarget p I J cost) hess chol = some (v, sign) →
      Spec.normaliser (codeTarget p I J cost) = ENNReal.ofReal (Real.exp (-(v - (J : ℝ) / 2 * Real.log (2 * Real.pi)))) := by
  intro hall
  have hh := hall demoLow 1 1 (fun _ _ => 0) (fun _ => some (fun _ => 0)) (fun x => !![Real.exp (x 0)]) cholOne 1 1 cholOne_sound
  rw [demoLow_target] at hh
  have h := hh ?_ ?_ ?_
  · have hz : Spec.normaliser (fun x : Fin 1 → ℝ => -x 0 + Real.exp (x 0)) = 1 := by
      have := normaliser_gammaPot (ι := Fin 1) 1 1 one_pos one_pos
      have e : (Spec.gammaPot 1 1 : (Fin 1 → ℝ) → ℝ) = fun x => -x 0 + Real.exp (x 0) := by
        funext x; simp [Spec.gammaPot]
      rw [e] at this
      simpa using this
    rw [hz, eq_comm, ENNReal.ofReal_eq_one, Real.exp_eq_one_iff] at h
    have hl : Real.log (2 * Real.pi) = 2 := by
      push_cast at h
      linarith
    have h2 : 2 * Real.pi = Real.exp 2 :=
      calc 2 * Real.pi = Real.exp (Real.log (2 * Real.pi)) := (Real.exp_log (by positivity)).symm
        _ = Real.exp 2 := by rw [hl]
    have h3 : Real.pi < 3.15 := Real.pi_lt_d2
    have h4 : Real.exp 2 = Real.exp 1 * Real.exp 1 := by rw [← Real.exp_add]; norm_num
    have h5 := Real.exp_one_gt_d9
    nlinarith
  · refine ⟨fun x _ => -1 + Real.exp (x 0), ?_, ?_⟩
    · intro x j
      have hj : j = 0 := Subsingleton.elim _ _
      subst hj
      have := (hasDerivAt_id (x 0)).neg.add (Real.hasDerivAt_exp (x 0))
      refine (this.congr_of_eventuallyEq ?_)
      refine Filter.Eventually.of_forall fun t => ?_
      simp
    · intro x i j
      have hj : j = 0 := Subsingleton.elim _ _
      have hi : i = 0 := Subsingleton.elim _ _
      subst hj hi
      have := (Real.hasDerivAt_exp (x 0)).const_add (-1)
      simpa using this
  · intro s x hx y
    obtain rfl := Option.some.inj hx
    have := Real.add_one_le_exp (y 0)
    simp
    linarith
  · unfold biasedZInverse
    simp [List.finRange, firstArgmin, cholOne]


/-! ## A case meeting the hypotheses: two destinations, correlated -/

def demoHess : Matrix (Fin 2) (Fin 2) ℝ := !![1, 1; 1, 5]

noncomputable def demoChol (A : Matrix (Fin 2) (Fin 2) ℝ) : Option (Matrix (Fin 2) (Fin 2) ℝ) :=
  open Classical in if A = demoHess then some !![1, 0; 1, 2] else none

theorem demoChol_sound : Spec.CholeskySound demoChol := by
  intro A L h
  unfold demoChol at h
  split at h
  · next hA =>
    subst hA
    obtain rfl := Option.some.inj h
    refine ⟨?_, ?_, ?_⟩
    · intro i j hij
      fin_cases i <;> fin_cases j <;> first | rfl | simp at hij
    · intro j
      fin_cases j <;> simp
    · unfold demoHess
      ext i j
      fin_cases i <;> fin_cases j <;> simp [Matrix.mul_apply, Fin.sum_univ_two]
      norm_num
  · simp at h

/-- The value the code returns, and the normalising constant it stands for. -/
example : biasedZInverse 1 (fun _ => some ![3, 4]) (Spec.quadratic 7 ![3, 4] demoHess) (fun _ => demoHess) demoChol =
    some (7 + Real.log 2, 1) := by
  unfold biasedZInverse
  simp [List.finRange, List.ofFn, Fin.foldr, Fin.foldr.loop, firstArgmin, demoChol, Spec.quadratic]

example : Spec.normaliser (Spec.quadratic 7 ![3, 4] demoHess) =
    ENNReal.ofReal (Real.exp (-(7 + Real.log 2 - ((2 : ℕ) : ℝ) / 2 * Real.log (2 * Real.pi)))) :=
  C153_exact_quadratic_partial 1 7 ![3, 4] demoHess (fun _ => some ![3, 4]) demoChol demoChol_sound ⟨0, rfl⟩ _ 1 (by
    unfold biasedZInverse
    simp [List.finRange, List.ofFn, Fin.foldr, Fin.foldr.loop, firstArgmin, demoChol, Spec.quadratic])

end GeNSIT
