import Verif.Sampler.Equilibrium
import Mathlib.Analysis.Matrix.LDL

/-!
# Property theorem C188, continued: Cholesky factors

`torch.linalg.cholesky` in `biased_z_inverse` (`/repo/gensit/learning_models/HarrisWilsonModel_MCMC.py:518`) can only return a factor of a positive definite matrix, and every positive definite
matrix has one: the hypotheses about the factorisation in `C188_saddle` can be met.
-/

namespace GeNSIT

open Finset Matrix

theorem form_eq_dot {J : ℕ} (A : Matrix (Fin J) (Fin J) ℝ) (v : Fin J → ℝ) : ∑ i, ∑ j, v i * A i j * v j = v ⬝ᵥ (A *ᵥ v) := by
  unfold dotProduct mulVec dotProduct
  refine sum_congr rfl fun i _ => ?_
  rw [mul_sum]
  refine sum_congr rfl fun j _ => ?_
  ring

theorem posDef_iff_spec {J : ℕ} (A : Matrix (Fin J) (Fin J) ℝ) : A.PosDef ↔ Spec.PositiveDefinite A := by
  rw [posDef_iff_dotProduct_mulVec]
  unfold Spec.PositiveDefinite
  simp only [form_eq_dot, star_trivial]
  refine and_congr_left fun _ => ?_
  constructor
  · intro h i j
    have := h.apply j i
    simpa using this
  · intro h
    ext i j
    simpa using h j i

/-- A factor with a nowhere zero diagonal can be given a positive one. -/
theorem fix_signs {J : ℕ} (A M : Matrix (Fin J) (Fin J) ℝ) (h1 : ∀ i j, i < j → M i j = 0) (h2 : ∀ j, M j j ≠ 0) (h3 : M * Mᵀ = A) : ∃ L, Spec.IsCholesky A L := by
  refine ⟨M * diagonal fun j => ((SignType.sign (M j j) : SignType) : ℝ), ?_, ?_, ?_⟩
  · intro i j hij
    rw [mul_diagonal, h1 i j hij, zero_mul]
  · intro j
    rw [mul_diagonal, mul_comm, sign_mul_self]
    exact abs_pos.2 (h2 j)
  · rw [← h3]
    ext i j
    rw [mul_apply, mul_apply]
    refine sum_congr rfl fun k _ => ?_
    rw [transpose_apply, transpose_apply, mul_diagonal, mul_diagonal]
    have : ((SignType.sign (M k k) : SignType) : ℝ) * (SignType.sign (M k k) : SignType) = 1 := by
      rcases lt_or_gt_of_ne (h2 k) with h | h
      · rw [sign_neg h]; norm_num
      · rw [sign_pos h]; norm_num
    linear_combination M i k * M j k * this

/-- **C188 (factorisation).**  The matrices with a Cholesky factor are the positive definite ones. -/
theorem C188_cholesky {J : ℕ} (A : Matrix (Fin J) (Fin J) ℝ) : (∃ L, Spec.IsCholesky A L) ↔ Spec.PositiveDefinite A := by
  constructor
  · rintro ⟨L, hl, hp, rfl⟩
    have hdet : L.det ≠ 0 := by
      rw [det_of_isLowerTriangular L fun i j hij => hl i j hij]
      exact (prod_pos fun i _ => hp i).ne'
    rw [← posDef_iff_spec, posDef_iff_dotProduct_mulVec]
    constructor
    · rw [← conjTranspose_eq_transpose_of_trivial]
      exact isHermitian_mul_conjTranspose_self L
    · intro v hv
      rw [star_trivial, ← mulVec_mulVec, dotProduct_mulVec, ← mulVec_transpose]
      have hne : Lᵀ *ᵥ v ≠ 0 := by
        intro h
        have hdet' : IsUnit Lᵀ.det := by rw [det_transpose]; exact isUnit_iff_ne_zero.2 hdet
        refine hv ?_
        have h2 : (Lᵀ)⁻¹ *ᵥ (Lᵀ *ᵥ v) = v := by rw [mulVec_mulVec, nonsing_inv_mul _ hdet', one_mulVec]
        rw [← h2, h, mulVec_zero]
      obtain ⟨i, hi⟩ := Function.ne_iff.1 hne
      exact sum_pos' (fun _ _ => mul_self_nonneg _) ⟨i, mem_univ _, mul_self_pos.2 hi⟩
  · intro h
    have hA := (posDef_iff_spec A).2 h
    set P : Matrix (Fin J) (Fin J) ℝ := LDL.lowerInv hA with hP
    have hPt : P.IsLowerTriangular := fun i j hij => LDL.lowerInv_triangular hA hij
    let _ : Invertible P := LDL.invertibleLowerInv hA
    have hPdet : P.det ≠ 0 := (isUnit_det_of_invertible P).ne_zero
    have hPd : ∀ i, P i i ≠ 0 := by
      rw [det_of_isLowerTriangular P hPt] at hPdet
      exact fun i => prod_ne_zero_iff.1 hPdet i (mem_univ i)
    set d : Fin J → ℝ := LDL.diagEntries hA with hd
    have hconj : diagonal d = P * A * Pᵀ := by
      have := LDL.diag_eq_lowerInv_conj hA
      rw [conjTranspose_eq_transpose_of_trivial] at this
      exact this
    have hdpos : ∀ i, 0 < d i := by
      intro i
      have h1 : d i = (P * A * Pᵀ) i i := by rw [← hconj, diagonal_apply_eq]
      have h2 : (P * A * Pᵀ) i i = ∑ a, ∑ b, P i a * A a b * P i b := by
        rw [mul_apply, sum_comm]
        refine sum_congr rfl fun b _ => ?_
        rw [mul_apply, transpose_apply, sum_mul]
      rw [h1, h2]
      refine h.2 (P i) fun h0 => hPd i ?_
      rw [h0]; rfl
    set Q : Matrix (Fin J) (Fin J) ℝ := P⁻¹ with hQ
    have hQt : Q.IsLowerTriangular := blockTriangular_inv_of_blockTriangular hPt
    have hQdet : Q.det ≠ 0 := by
      rw [hQ, det_nonsing_inv]
      simpa using hPdet
    have hQd : ∀ i, Q i i ≠ 0 := by
      rw [det_of_isLowerTriangular Q hQt] at hQdet
      exact fun i => prod_ne_zero_iff.1 hQdet i (mem_univ i)
    have hfac : Q * diagonal d * Qᵀ = A := by
      have := LDL.lower_conj_diag hA
      rw [conjTranspose_eq_transpose_of_trivial] at this
      exact this
    refine fix_signs A (Q * diagonal fun i => Real.sqrt (d i)) ?_ ?_ ?_
    · intro i j hij
      rw [mul_diagonal, hQt hij, zero_mul]
    · intro j
      rw [mul_diagonal]
      exact mul_ne_zero (hQd j) (Real.sqrt_pos.2 (hdpos j)).ne'
    · rw [transpose_mul, diagonal_transpose, ← hfac, Matrix.mul_assoc, ← Matrix.mul_assoc (diagonal _) (diagonal _), diagonal_mul_diagonal, Matrix.mul_assoc]
      simp only [Real.mul_self_sqrt (hdpos _).le]

/-- A factorisation that is sound and complete. -/
noncomputable def someCholesky {J : ℕ} (A : Matrix (Fin J) (Fin J) ℝ) : Option (Matrix (Fin J) (Fin J) ℝ) :=
  open Classical in if h : ∃ L, Spec.IsCholesky A L then some h.choose else none

theorem someCholesky_sound {J : ℕ} : Spec.CholeskySound (someCholesky (J := J)) := by
  intro A L h
  unfold someCholesky at h
  by_cases hL : ∃ L, Spec.IsCholesky A L
  · rw [dif_pos hL] at h
    cases h
    exact hL.choose_spec
  · rw [dif_neg hL] at h
    cases h

theorem someCholesky_complete {J : ℕ} : Spec.CholeskyComplete (someCholesky (J := J)) := by
  intro A hA
  unfold someCholesky
  rw [dif_pos ((C188_cholesky A).2 hA)]
  exact ⟨_, rfl⟩

/-- The hypotheses of `C188_saddle` can be met, for two destinations. -/
example : ∃ opt v, biasedZInverse demoFlat.delta opt (codeTarget demoFlat 1 2 fun _ _ => 0) (targetHessian demoFlat 1 2 fun _ _ => 0) someCholesky = some (v, 1) := by
  obtain ⟨x, hx⟩ := exists_minimum demoFlat demoFlat_admitted (by norm_num [demoFlat]) one_pos (by norm_num : 0 < 2) fun _ _ => 0
  obtain ⟨_, _, _, h⟩ := C188_saddle demoFlat demoFlat_admitted (by norm_num [demoFlat]) le_rfl one_pos (by norm_num : 0 < 2) _ _ (C188_hessian demoFlat one_pos (by norm_num [demoFlat]) _)
    someCholesky someCholesky_sound someCholesky_complete (fun _ => some x)
    fun _ => ⟨x, rfl, fun j => minimum_stationary demoFlat one_pos (by norm_num [demoFlat]) _ x hx j⟩
  exact ⟨_, _, h⟩

end GeNSIT
