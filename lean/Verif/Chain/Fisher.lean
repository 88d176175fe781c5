import Verif.Chain.Props
import Mathlib.Analysis.SpecialFunctions.Exp
import Mathlib.Algebra.BigOperators.Field
import Mathlib.Data.Nat.Choose.Basic
import Mathlib.Data.Int.Interval

/-!
# C94: the degree-higher table step is an exact Gibbs draw

The law of the draw in `degree_higher_proposal_2way_table_fishers_hypergeometric` and its invariant distribution.
-/

namespace GeNSIT

open Spec

/-! ## Model -/

/-- `log_odds_cross_ratio` (`utils/probability_utils.py:77-79`). -/
def logOddsCrossRatio {m n : Nat} (w : Fin m → Fin n → ℝ) (c1 c2 : Cell m n) : ℝ :=
  w c1.1 c1.2 + w c2.1 c2.2 - w c1.1 c2.2 - w c2.1 c1.2

open Classical in
/-- `safe_cast` (`utils/misc_utils.py:1556-1566`) on a real number. -/
noncomputable def safeCast (x lo hi : ℝ) : ℝ :=
  let x := if x > lo then x else lo
  if x < hi then x else hi

/-- The arguments of `nchypergeom_fisher.rvs` (`ContingencyTable_MCMC.py:648`). -/
structure FisherArgs where
  total : Int
  rsum : Int
  csum : Int
  odds : ℝ

/-- The computation of those arguments for the drawn move (`ContingencyTable_MCMC.py:619-645`); `none` = the unpacking of
the positive cells or an index fails.  The bounds `np.float32(1e-6)` and `np.float32(1e6)` are taken as exact reals. -/
noncomputable def fisherArgs {m n : Nat} (w : Fin m → Fin n → ℝ) (t : Table m n) (mv : Move m n) : Option FisherArgs :=
  let nonZero := sortCells (mv.map Prod.fst)
  match nonZero.filter (fun c => decide (0 < moveAt mv c)), nonZero with
  | [p, q], z0 :: z1 :: z2 :: _ =>
    some { total := (nonZero.map t.at).sum
           rsum := t.at z0 + t.at z1
           csum := t.at z0 + t.at z2
           odds := safeCast (Real.exp (logOddsCrossRatio w p q)) (1 / 1000000) 1000000 }
  | _, _ => none

/-- The values `scipy.stats.nchypergeom_fisher(M = total, n = rsum, N = csum)` can return. -/
noncomputable def FisherArgs.support (a : FisherArgs) : Finset Int := Finset.Icc (max 0 (a.csum - (a.total - a.rsum))) (min a.rsum a.csum)

/-- The unnormalised weight of `x` as documented for `scipy.stats.nchypergeom_fisher`:
`comb(n, x) * comb(M - n, N - x) * odds**x`. -/
noncomputable def FisherArgs.weight (a : FisherArgs) (x : Int) : ℝ :=
  (a.rsum.toNat.choose x.toNat : ℝ) * ((a.total - a.rsum).toNat.choose (a.csum - x).toNat : ℝ) * a.odds ^ x.toNat

/-- Its probability mass function. -/
noncomputable def FisherArgs.pmf (a : FisherArgs) (x : Int) : ℝ := a.weight x / ∑ y ∈ a.support, a.weight y

/-- The expectation of `psi` of the outcome of one degree-higher table step (`ContingencyTable_MCMC.py:612-669`, `:754-775`): the basis index
is uniform (`:617`), the value is drawn from Fisher's non-central hypergeometric distribution (`:648`).  The outcome is what
`Sampler.step` returns. -/
noncomputable def higherMean {m n : Nat} (s : Sampler m n) (w : Fin m → Fin n → ℝ) (t : Table m n)
    (psi : Option (Table m n × Nat) → ℝ) : ℝ :=
  (∑ idx ∈ Finset.range s.basis.length,
    match (s.basis[idx]?).bind (fisherArgs w t) with
    | none => psi none
    | some a => ∑ v ∈ a.support, a.pmf v * psi (s.step t (.higher idx (some v)))) / s.basis.length

/-! ## Specification -/

/-- The target of the table sampler up to a constant: independent Poisson counts with intensities `exp w` (to be conditioned on the
margins): `∏ exp(w)^t / t!`. -/
noncomputable def Spec.target {m n : Nat} (w : Fin m → Fin n → ℝ) (t : Table m n) : ℝ :=
  ∏ i, ∏ j, Real.exp (w i j) ^ (t i j).toNat / ((t i j).toNat.factorial : ℝ)

/-- The non-negative tables with given row and column sums that agree with the truth at the fixed cells. -/
def Spec.Fibre {m n : Nat} (row : Fin m → Int) (col : Fin n → Int) (fixed : List (Cell m n)) (truth : Table m n) :
    Set (Table m n) :=
  fun t => Nonneg t ∧ (∀ i, rowSum t i = row i) ∧ (∀ j, colSum t j = col j) ∧ AgreeAt fixed t truth

/-! ## Proof -/

theorem target_pos {m n : Nat} (w : Fin m → Fin n → ℝ) (t : Table m n) : 0 < target w t := by
  unfold target
  refine Finset.prod_pos fun i _ => Finset.prod_pos fun j _ => ?_
  have := Nat.factorial_pos (t i j).toNat
  positivity

/-- A product of factors that are `1` outside a rectangle. -/
theorem prod_rectangle {m n : Nat} (g : Fin m → Fin n → ℝ) {a1 b1 : Fin m} {a2 b2 : Fin n} (h1 : a1 ≠ b1) (h2 : a2 ≠ b2)
    (hg : ∀ i j, (i ≠ a1 ∧ i ≠ b1) ∨ (j ≠ a2 ∧ j ≠ b2) → g i j = 1) :
    ∏ i, ∏ j, g i j = g a1 a2 * g a1 b2 * (g b1 a2 * g b1 b2) := by
  rw [Fintype.prod_eq_mul a1 b1 h1, Fintype.prod_eq_mul a2 b2 h2, Fintype.prod_eq_mul a2 b2 h2]
  · intro x hx; exact hg _ _ (Or.inr hx)
  · intro x hx; exact hg _ _ (Or.inr hx)
  · intro x hx; exact Finset.prod_eq_one fun j _ => hg _ _ (Or.inl hx)

theorem fisherArgs_corner {m n : Nat} (w : Fin m → Fin n → ℝ) (t : Table m n) {a b : Cell m n} (h1 : a.1 < b.1) (h2 : a.2 < b.2) :
    fisherArgs w t (cornerMove a b) = some
      { total := t a.1 a.2 + t a.1 b.2 + t b.1 a.2 + t b.1 b.2
        rsum := t a.1 a.2 + t a.1 b.2
        csum := t a.1 a.2 + t b.1 a.2
        odds := safeCast (Real.exp (w a.1 a.2 + w b.1 b.2 - w a.1 b.2 - w b.1 a.2)) (1 / 1000000) 1000000 } := by
  have n3 : a.1 ≠ b.1 := ne_of_lt h1
  have n4 : a.2 ≠ b.2 := ne_of_lt h2
  have hm := cornerMove_at n3 n4
  unfold fisherArgs
  simp only [sortCells_corner h1 h2]
  have e1 : moveAt (cornerMove a b) (a.1, a.2) = 1 := by rw [hm]; simp [n3, n4]
  have e2 : moveAt (cornerMove a b) (a.1, b.2) = -1 := by rw [hm]; simp [n3, n4.symm]
  have e3 : moveAt (cornerMove a b) (b.1, a.2) = -1 := by rw [hm]; simp [n3.symm, n4]
  have e4 : moveAt (cornerMove a b) (b.1, b.2) = 1 := by rw [hm]; simp [n3.symm, n4.symm]
  simp only [List.filter_cons, e1, e2, e3, e4, List.filter_nil]
  simp [logOddsCrossRatio, Table.at, add_assoc]

/-- The weight of the upper-left value of a non-negative 2×2 table. -/
theorem weight_eq (x11 x12 x21 x22 : Int) (p11 : 0 ≤ x11) (p12 : 0 ≤ x12) (p21 : 0 ≤ x21) (p22 : 0 ≤ x22) (om : ℝ) (a : FisherArgs)
    (ha : a = ⟨x11 + x12 + x21 + x22, x11 + x12, x11 + x21, om⟩) :
    a.weight x11 = ((x11 + x12).toNat.factorial : ℝ) * ((x21 + x22).toNat.factorial : ℝ) /
      (x11.toNat.factorial * x12.toNat.factorial * x21.toNat.factorial * x22.toNat.factorial) * om ^ x11.toNat := by
  subst ha
  obtain ⟨k11, rfl⟩ := Int.eq_ofNat_of_zero_le p11
  obtain ⟨k12, rfl⟩ := Int.eq_ofNat_of_zero_le p12
  obtain ⟨k21, rfl⟩ := Int.eq_ofNat_of_zero_le p21
  obtain ⟨k22, rfl⟩ := Int.eq_ofNat_of_zero_le p22
  have f1 : ((k11 : Int) + k12).toNat = k11 + k12 := by omega
  have f2 : ((k21 : Int) + k22).toNat = k21 + k22 := by omega
  have f3 : ((k11 : Int) + k12 + k21 + k22 - (k11 + k12)).toNat = k21 + k22 := by omega
  have f4 : ((k11 : Int) + k21 - k11).toNat = k21 := by omega
  simp only [FisherArgs.weight, f1, f2, f3, f4, Int.toNat_natCast]
  have c1 : ((k11 + k12).choose k11 : ℝ) = (k11 + k12).factorial / (k11.factorial * k12.factorial) := by
    rw [eq_div_iff (by positivity)]
    have := Nat.choose_mul_factorial_mul_factorial (Nat.le_add_right k11 k12)
    rw [Nat.add_sub_cancel_left] at this
    rw [← mul_assoc]
    exact_mod_cast this
  have c2 : ((k21 + k22).choose k21 : ℝ) = (k21 + k22).factorial / (k21.factorial * k22.factorial) := by
    rw [eq_div_iff (by positivity)]
    have := Nat.choose_mul_factorial_mul_factorial (Nat.le_add_right k21 k22)
    rw [Nat.add_sub_cancel_left] at this
    rw [← mul_assoc]
    exact_mod_cast this
  rw [c1, c2]
  field_simp

/-- Moving along a rectangle changes the target as it changes Fisher's weight. -/
theorem target_ratio {m n : Nat} (w : Fin m → Fin n → ℝ) (t : Table m n) {a b : Cell m n} (h1 : a.1 < b.1) (h2 : a.2 < b.2)
    (e : Int) (ht : Nonneg t) (ht' : Nonneg (applyMove t (cornerMove a b) e)) (A : FisherArgs)
    (hA : A = ⟨t a.1 a.2 + t a.1 b.2 + t b.1 a.2 + t b.1 b.2, t a.1 a.2 + t a.1 b.2, t a.1 a.2 + t b.1 a.2,
      Real.exp (w a.1 a.2 + w b.1 b.2 - w a.1 b.2 - w b.1 a.2)⟩) :
    target w (applyMove t (cornerMove a b) e) * A.weight (t a.1 a.2) =
      target w t * A.weight (t a.1 a.2 + e) := by
  have n3 : a.1 ≠ b.1 := ne_of_lt h1
  have n4 : a.2 ≠ b.2 := ne_of_lt h2
  set t' := applyMove t (cornerMove a b) e with htd
  have hcell : ∀ i j, t' i j = t i j + e * (((if i = a.1 then 1 else 0) - (if i = b.1 then 1 else 0)) *
        ((if j = a.2 then 1 else 0) - (if j = b.2 then 1 else 0))) := fun i j => corner_effect t h1 h2 e i j
  have c11 : t' a.1 a.2 = t a.1 a.2 + e := by rw [hcell]; simp [n3, n4]
  have c12 : t' a.1 b.2 = t a.1 b.2 - e := by rw [hcell]; simp [n3, n4.symm]; ring
  have c21 : t' b.1 a.2 = t b.1 a.2 - e := by rw [hcell]; simp [n3.symm, n4]; ring
  have c22 : t' b.1 b.2 = t b.1 b.2 + e := by rw [hcell]; simp [n3.symm, n4.symm]
  -- the quotient of the targets
  let f : Table m n → Fin m → Fin n → ℝ := fun t i j => Real.exp (w i j) ^ (t i j).toNat / ((t i j).toNat.factorial : ℝ)
  have hpos : ∀ t i j, 0 < f t i j := by
    intro t i j
    have := Nat.factorial_pos (t i j).toNat
    simp only [f]; positivity
  have hq : target w t' / target w t = (f t' a.1 a.2 / f t a.1 a.2) * (f t' a.1 b.2 / f t a.1 b.2) *
      ((f t' b.1 a.2 / f t b.1 a.2) * (f t' b.1 b.2 / f t b.1 b.2)) := by
    rw [← prod_rectangle (fun i j => f t' i j / f t i j) n3 n4]
    · simp only [Finset.prod_div_distrib]
      rfl
    · intro i j hij
      have : t' i j = t i j := by
        rw [hcell]
        rcases hij with ⟨p, q⟩ | ⟨p, q⟩ <;> simp [p, q]
      simp only [f, this]
      exact div_self (hpos t i j).ne'
  have hT := target_pos w t
  have hT' : target w t' = target w t * ((f t' a.1 a.2 / f t a.1 a.2) * (f t' a.1 b.2 / f t a.1 b.2) *
      ((f t' b.1 a.2 / f t b.1 a.2) * (f t' b.1 b.2 / f t b.1 b.2))) := by
    rw [← hq]; field_simp
  rw [hT']
  have W1 := weight_eq (t a.1 a.2) (t a.1 b.2) (t b.1 a.2) (t b.1 b.2) (ht _ _) (ht _ _) (ht _ _) (ht _ _) _ A hA
  have W2 := weight_eq (t' a.1 a.2) (t' a.1 b.2) (t' b.1 a.2) (t' b.1 b.2) (ht' _ _) (ht' _ _) (ht' _ _) (ht' _ _)
    (Real.exp (w a.1 a.2 + w b.1 b.2 - w a.1 b.2 - w b.1 a.2)) A
    (by rw [hA, c11, c12, c21, c22]; congr 1 <;> ring)
  rw [show t a.1 a.2 + e = t' a.1 a.2 from c11.symm, W1, W2, show t' a.1 a.2 + t' a.1 b.2 = t a.1 a.2 + t a.1 b.2 by rw [c11, c12]; ring,
    show t' b.1 a.2 + t' b.1 b.2 = t b.1 a.2 + t b.1 b.2 by rw [c21, c22]; ring]
  simp only [f]
  -- exponents
  have E : ∀ (x : ℝ) (k : Int), 0 ≤ k → Real.exp x ^ k.toNat = Real.exp (x * k) := by
    intro x k hk
    rw [← Real.exp_nat_mul, mul_comm]
    congr 2
    exact_mod_cast Int.toNat_of_nonneg hk
  rw [E _ _ (ht' a.1 a.2), E _ _ (ht' a.1 b.2), E _ _ (ht' b.1 a.2), E _ _ (ht' b.1 b.2), E _ _ (ht a.1 a.2), E _ _ (ht a.1 b.2),
    E _ _ (ht b.1 a.2), E _ _ (ht b.1 b.2), E _ _ (ht a.1 a.2), E _ _ (ht' a.1 a.2)]
  have hexp : Real.exp (w a.1 a.2 * (t' a.1 a.2 : ℤ)) * Real.exp (w a.1 b.2 * (t' a.1 b.2 : ℤ)) *
      (Real.exp (w b.1 a.2 * (t' b.1 a.2 : ℤ)) * Real.exp (w b.1 b.2 * (t' b.1 b.2 : ℤ))) *
      Real.exp ((w a.1 a.2 + w b.1 b.2 - w a.1 b.2 - w b.1 a.2) * (t a.1 a.2 : ℤ)) =
      Real.exp (w a.1 a.2 * (t a.1 a.2 : ℤ)) * Real.exp (w a.1 b.2 * (t a.1 b.2 : ℤ)) *
      (Real.exp (w b.1 a.2 * (t b.1 a.2 : ℤ)) * Real.exp (w b.1 b.2 * (t b.1 b.2 : ℤ))) *
      Real.exp ((w a.1 a.2 + w b.1 b.2 - w a.1 b.2 - w b.1 a.2) * (t' a.1 a.2 : ℤ)) := by
    simp only [← Real.exp_add]
    congr 1
    rw [c11, c12, c21, c22]
    push_cast
    ring
  have q : ∀ k : Nat, (k.factorial : ℝ) ≠ 0 := fun k => by positivity
  have p11 := (Real.exp_pos (w a.1 a.2 * (t a.1 a.2 : ℤ))).ne'
  have p12 := (Real.exp_pos (w a.1 b.2 * (t a.1 b.2 : ℤ))).ne'
  have p21 := (Real.exp_pos (w b.1 a.2 * (t b.1 a.2 : ℤ))).ne'
  have p22 := (Real.exp_pos (w b.1 b.2 * (t b.1 b.2 : ℤ))).ne'
  have hexp' : Real.exp ((w a.1 a.2 + w b.1 b.2 - w a.1 b.2 - w b.1 a.2) * (t' a.1 a.2 : ℤ)) =
      Real.exp (w a.1 a.2 * (t' a.1 a.2 : ℤ)) * Real.exp (w a.1 b.2 * (t' a.1 b.2 : ℤ)) *
      (Real.exp (w b.1 a.2 * (t' b.1 a.2 : ℤ)) * Real.exp (w b.1 b.2 * (t' b.1 b.2 : ℤ))) *
      Real.exp ((w a.1 a.2 + w b.1 b.2 - w a.1 b.2 - w b.1 a.2) * (t a.1 a.2 : ℤ)) /
      (Real.exp (w a.1 a.2 * (t a.1 a.2 : ℤ)) * Real.exp (w a.1 b.2 * (t a.1 b.2 : ℤ)) *
      (Real.exp (w b.1 a.2 * (t b.1 a.2 : ℤ)) * Real.exp (w b.1 b.2 * (t b.1 b.2 : ℤ)))) := by
    rw [hexp]; field_simp
  rw [hexp']
  have := q (t a.1 a.2).toNat
  have := q (t a.1 b.2).toNat
  have := q (t b.1 a.2).toNat
  have := q (t b.1 b.2).toNat
  have := q (t' a.1 a.2).toNat
  have := q (t' a.1 b.2).toNat
  have := q (t' b.1 a.2).toNat
  have := q (t' b.1 b.2).toNat
  field_simp

theorem safeCast_id {x : ℝ} (h1 : 1 / 1000000 ≤ x) (h2 : x ≤ 1000000) : safeCast x (1 / 1000000) 1000000 = x := by
  unfold safeCast
  simp only
  split
  · split
    · rfl
    · linarith
  · have : x = 1 / 1000000 := by linarith
    subst this
    norm_num

theorem safeCast_pos (x : ℝ) : 0 < safeCast x (1 / 1000000) 1000000 := by
  unfold safeCast
  simp only
  split_ifs <;> linarith

/-- Detailed balance, summed: one rectangle. -/
theorem rectangle_balance {m n : Nat} (w : Fin m → Fin n → ℝ) {a b : Cell m n} (h1 : a.1 < b.1) (h2 : a.2 < b.2)
    (hlo : 1 / 1000000 ≤ Real.exp (w a.1 a.2 + w b.1 b.2 - w a.1 b.2 - w b.1 a.2))
    (hhi : Real.exp (w a.1 a.2 + w b.1 b.2 - w a.1 b.2 - w b.1 a.2) ≤ 1000000)
    (F : Finset (Table m n)) (hnn : ∀ t ∈ F, Nonneg t)
    (hcl : ∀ t ∈ F, ∀ e, Nonneg (applyMove t (cornerMove a b) e) → applyMove t (cornerMove a b) e ∈ F)
    (args : Table m n → FisherArgs) (hargs : ∀ t, fisherArgs w t (cornerMove a b) = some (args t)) (psi : Table m n → ℝ) :
    ∑ t ∈ F, target w t * ∑ v ∈ (args t).support, (args t).pmf v * psi (applyMove t (cornerMove a b) (v - t a.1 a.2)) =
      ∑ t ∈ F, target w t * psi t := by
  have n3 : a.1 ≠ b.1 := ne_of_lt h1
  have n4 : a.2 ≠ b.2 := ne_of_lt h2
  have hA : ∀ t, args t = ⟨t a.1 a.2 + t a.1 b.2 + t b.1 a.2 + t b.1 b.2, t a.1 a.2 + t a.1 b.2, t a.1 a.2 + t b.1 a.2,
      Real.exp (w a.1 a.2 + w b.1 b.2 - w a.1 b.2 - w b.1 a.2)⟩ := by
    intro t
    have := hargs t
    rw [fisherArgs_corner w t h1 h2, safeCast_id hlo hhi] at this
    exact (Option.some.inj this).symm
  have hcell : ∀ t e i j, applyMove t (cornerMove a b) e i j = t i j +
      e * (((if i = a.1 then 1 else 0) - (if i = b.1 then 1 else 0)) *
        ((if j = a.2 then 1 else 0) - (if j = b.2 then 1 else 0))) := fun t e i j => corner_effect t h1 h2 e i j
  have c11 : ∀ t e, applyMove t (cornerMove a b) e a.1 a.2 = t a.1 a.2 + e := by intro t e; rw [hcell]; simp [n3, n4]
  have c12 : ∀ t e, applyMove t (cornerMove a b) e a.1 b.2 = t a.1 b.2 - e := by
    intro t e; rw [hcell]; simp [n3, n4.symm]; ring
  have c21 : ∀ t e, applyMove t (cornerMove a b) e b.1 a.2 = t b.1 a.2 - e := by
    intro t e; rw [hcell]; simp [n3.symm, n4]; ring
  have c22 : ∀ t e, applyMove t (cornerMove a b) e b.1 b.2 = t b.1 b.2 + e := by
    intro t e; rw [hcell]; simp [n3.symm, n4.symm]
  have hsame : ∀ t e, args (applyMove t (cornerMove a b) e) = args t := by
    intro t e
    rw [hA, hA, c11, c12, c21, c22]
    congr 1 <;> ring
  have hback : ∀ t e, applyMove (applyMove t (cornerMove a b) e) (cornerMove a b) (-e) = t := by
    intro t e
    funext i j
    rw [hcell, hcell]; ring
  have hsupp : ∀ t ∈ F, ∀ v, v ∈ (args t).support ↔ Nonneg (applyMove t (cornerMove a b) (v - t a.1 a.2)) := by
    intro t ht v
    rw [corner_nonneg_iff (hnn t ht) h1 h2, hA, FisherArgs.support, Finset.mem_Icc]
    simp only
    omega
  have hself : ∀ t ∈ F, t a.1 a.2 ∈ (args t).support := by
    intro t ht
    rw [hsupp t ht]
    have : applyMove t (cornerMove a b) (t a.1 a.2 - t a.1 a.2) = t := by
      funext i j; rw [hcell]; simp
    rw [this]
    exact hnn t ht
  have hwnn : ∀ t v, 0 ≤ (args t).weight v := by
    intro t v
    rw [hA]
    unfold FisherArgs.weight
    positivity
  have hZ : ∀ t ∈ F, 0 < ∑ y ∈ (args t).support, (args t).weight y := by
    intro t ht
    refine Finset.sum_pos' (fun v _ => hwnn t v) ⟨_, hself t ht, ?_⟩
    rw [weight_eq _ _ _ _ (hnn t ht _ _) (hnn t ht _ _) (hnn t ht _ _) (hnn t ht _ _) _ (args t) (hA t)]
    have := Real.exp_pos (w a.1 a.2 + w b.1 b.2 - w a.1 b.2 - w b.1 a.2)
    positivity
  -- the flux from `t` to the table with upper-left value `v`
  have hflux : ∀ t ∈ F, ∀ v ∈ (args t).support,
      target w (applyMove t (cornerMove a b) (v - t a.1 a.2)) *
        (args (applyMove t (cornerMove a b) (v - t a.1 a.2))).pmf (t a.1 a.2) = target w t * (args t).pmf v := by
    intro t ht v hv
    rw [hsame]
    have := target_ratio w t h1 h2 (v - t a.1 a.2) (hnn t ht) ((hsupp t ht v).1 hv) (args t) (hA t)
    rw [show t a.1 a.2 + (v - t a.1 a.2) = v by ring] at this
    unfold FisherArgs.pmf
    rw [← mul_div_assoc, this, mul_div_assoc]
  -- swap the two ends of every transition
  have hswap : ∑ t ∈ F, ∑ v ∈ (args t).support, target w t * (args t).pmf v * psi (applyMove t (cornerMove a b) (v - t a.1 a.2)) =
      ∑ t ∈ F, ∑ v ∈ (args t).support, target w t * (args t).pmf v * psi t := by
    rw [Finset.sum_sigma', Finset.sum_sigma']
    refine Finset.sum_bij' (fun x _ => ⟨applyMove x.1 (cornerMove a b) (x.2 - x.1 a.1 a.2), x.1 a.1 a.2⟩)
      (fun x _ => ⟨applyMove x.1 (cornerMove a b) (x.2 - x.1 a.1 a.2), x.1 a.1 a.2⟩) ?_ ?_ ?_ ?_ ?_
    · rintro ⟨t, v⟩ hx
      rw [Finset.mem_sigma] at hx ⊢
      refine ⟨hcl t hx.1 _ ((hsupp t hx.1 v).1 hx.2), ?_⟩
      simp only [hsame]
      exact hself t hx.1
    · rintro ⟨t, v⟩ hx
      rw [Finset.mem_sigma] at hx ⊢
      refine ⟨hcl t hx.1 _ ((hsupp t hx.1 v).1 hx.2), ?_⟩
      simp only [hsame]
      exact hself t hx.1
    · rintro ⟨t, v⟩ hx
      simp only [Sigma.mk.injEq, c11]
      refine ⟨?_, by rw [heq_eq_eq]; ring⟩
      rw [show t a.1 a.2 - (t a.1 a.2 + (v - t a.1 a.2)) = -(v - t a.1 a.2) by ring, hback]
    · rintro ⟨t, v⟩ hx
      simp only [Sigma.mk.injEq, c11]
      refine ⟨?_, by rw [heq_eq_eq]; ring⟩
      rw [show t a.1 a.2 - (t a.1 a.2 + (v - t a.1 a.2)) = -(v - t a.1 a.2) by ring, hback]
    · rintro ⟨t, v⟩ hx
      rw [Finset.mem_sigma] at hx
      simp only
      rw [hflux t hx.1 v hx.2]
  calc _ = ∑ t ∈ F, ∑ v ∈ (args t).support, target w t * (args t).pmf v * psi (applyMove t (cornerMove a b) (v - t a.1 a.2)) := by
        refine Finset.sum_congr rfl fun t _ => ?_
        rw [Finset.mul_sum]
        exact Finset.sum_congr rfl fun v _ => by ring
    _ = _ := hswap
    _ = _ := by
        refine Finset.sum_congr rfl fun t ht => ?_
        rw [← Finset.sum_mul, ← Finset.mul_sum]
        have : ∑ v ∈ (args t).support, (args t).pmf v = 1 := by
          unfold FisherArgs.pmf
          rw [← Finset.sum_div]
          exact div_self (hZ t ht).ne'
        rw [this, mul_one]

theorem bothMargins_name {constrained : List Ax} (hk : BothMargins constrained) :
    distributionName constrained = some "fishers_hypergeometric" := by
  have hlen : ((constrained.filter (fun a => a.length == 1)).dedup).length = 2 := by
    rw [← List.card_toFinset]
    have : (constrained.filter (fun a => a.length == 1)).toFinset = {[0], [1]} := by
      ext a
      simp only [List.mem_toFinset, List.mem_filter, hk.2, Finset.mem_insert, Finset.mem_singleton]
      constructor
      · rintro ⟨h | h | h, h'⟩
        · exact Or.inl h
        · exact Or.inr h
        · subst h; simp at h'
      · rintro (h | h) <;> subst h <;> simp
    rw [this]; rfl
  simp [distributionName, hk.1, hlen]

/-- **C94.** Both margins fixed, any fixed cells, any generated (non-empty) basis, intensities whose odds ratios over the 2×2
rectangles lie in the range the code allows: start the table from the target law on its fibre and do one degree-higher step: the table
still has that law (and the step never fails and always counts as accepted). -/
theorem C94_gibbs_invariant {m n : Nat} (s : Sampler m n) (hk : BothMargins s.constrained) (pick : Cell m n → Nat)
    (hb : generateBasis s.constrained s.fixed pick = some s.basis) (hne : s.basis ≠ []) (w : Fin m → Fin n → ℝ)
    (hlo : ∀ i₁ i₂ j₁ j₂, i₁ < i₂ → j₁ < j₂ → 1 / 1000000 ≤ Real.exp (w i₁ j₁ + w i₂ j₂ - w i₁ j₂ - w i₂ j₁))
    (hhi : ∀ i₁ i₂ j₁ j₂, i₁ < i₂ → j₁ < j₂ → Real.exp (w i₁ j₁ + w i₂ j₂ - w i₁ j₂ - w i₂ j₁) ≤ 1000000)
    (row : Fin m → Int) (col : Fin n → Int) (F : Finset (Table m n)) (hF : ↑F = Fibre row col s.fixed s.truth)
    (psi : Option (Table m n × Nat) → ℝ) :
    ∑ t ∈ F, target w t * higherMean s w t psi = ∑ t ∈ F, target w t * psi (some (t, 1)) := by
  have hd := bothMargins_name hk
  have hmem : ∀ t, t ∈ F ↔ Nonneg t ∧ (∀ i, rowSum t i = row i) ∧ (∀ j, colSum t j = col j) ∧ AgreeAt s.fixed t s.truth := by
    intro t
    rw [← Finset.mem_coe, hF]; rfl
  have hlen : (0 : ℝ) < s.basis.length := by
    exact_mod_cast List.length_pos_of_ne_nil hne
  have m1 : [1] ∈ s.constrained := (hk.2 _).mpr (by simp)
  have m0 : [0] ∈ s.constrained := (hk.2 _).mpr (by simp)
  -- every index contributes the same
  have hidx : ∀ idx ∈ Finset.range s.basis.length, ∑ t ∈ F, target w t *
      (match (s.basis[idx]?).bind (fisherArgs w t) with
      | none => psi none
      | some a => ∑ v ∈ a.support, a.pmf v * psi (s.step t (.higher idx (some v)))) =
      ∑ t ∈ F, target w t * psi (some (t, 1)) := by
    intro idx hi
    have hi' := Finset.mem_range.1 hi
    have hget : s.basis[idx]? = some s.basis[idx] := List.getElem?_eq_getElem hi'
    have hmv : s.basis[idx] ∈ s.basis := List.getElem_mem hi'
    obtain ⟨a, b, h1, h2, ha, hb', hab, hba, hcm⟩ := both_basis_mem hk hb hmv
    let args : Table m n → FisherArgs := fun t => ⟨t a.1 a.2 + t a.1 b.2 + t b.1 a.2 + t b.1 b.2, t a.1 a.2 + t a.1 b.2,
      t a.1 a.2 + t b.1 a.2, safeCast (Real.exp (w a.1 a.2 + w b.1 b.2 - w a.1 b.2 - w b.1 a.2)) (1 / 1000000) 1000000⟩
    have hargs : ∀ t, fisherArgs w t (cornerMove a b) = some (args t) := fun t => fisherArgs_corner w t h1 h2
    refine Eq.trans ?_ (rectangle_balance w h1 h2 (hlo _ _ _ _ h1 h2) (hhi _ _ _ _ h1 h2) F
      (fun t ht => ((hmem t).1 ht).1) ?_ args hargs (fun t => psi (some (t, 1))))
    · refine Finset.sum_congr rfl fun t _ => ?_
      simp only [hget, hcm, Option.bind_some, hargs]
      congr 1
      refine Finset.sum_congr rfl fun v _ => ?_
      congr 2
      simp only [Sampler.step, hd, if_true, hget, hcm]
      simp [degreeHigher_corner t h1 h2]
    · intro t ht e hn
      obtain ⟨_, p1, p2, p3⟩ := (hmem t).1 ht
      obtain ⟨q1, q2, _, q4⟩ := generated_move_preserves (Or.inr (Or.inr hk)) hb hmv t e
      rw [hcm] at q1 q2 q4
      refine (hmem _).2 ⟨hn, fun i => (q1 m1 i).trans (p1 i), fun j => (q2 m0 j).trans (p2 j), ?_⟩
      intro i j hij
      rw [q4 i j hij]; exact p3 i j hij
  unfold higherMean
  calc _ = (∑ t ∈ F, target w t * ∑ idx ∈ Finset.range s.basis.length,
        (match (s.basis[idx]?).bind (fisherArgs w t) with
        | none => psi none
        | some a => ∑ v ∈ a.support, a.pmf v * psi (s.step t (.higher idx (some v))))) / s.basis.length := by
        rw [Finset.sum_div]
        exact Finset.sum_congr rfl fun t _ => by rw [mul_div_assoc]
    _ = (∑ idx ∈ Finset.range s.basis.length, ∑ t ∈ F, target w t *
        (match (s.basis[idx]?).bind (fisherArgs w t) with
        | none => psi none
        | some a => ∑ v ∈ a.support, a.pmf v * psi (s.step t (.higher idx (some v))))) / s.basis.length := by
        congr 1
        rw [Finset.sum_comm]
        exact Finset.sum_congr rfl fun t _ => by rw [Finset.mul_sum]
    _ = _ := by
        rw [Finset.sum_congr rfl hidx, Finset.sum_const, Finset.card_range, nsmul_eq_mul]
        field_simp

/-- The fibre is finite, so that the sums above range over a genuine set of tables. -/
theorem C94_fibre_finite {m n : Nat} (row : Fin m → Int) (col : Fin n → Int) (fixed : List (Cell m n)) (truth : Table m n) :
    ∃ F : Finset (Table m n), ↑F = Fibre row col fixed truth := by
  have : (Fibre row col fixed truth).Finite := by
    refine Set.Finite.subset (s := Set.pi Set.univ fun i => Set.pi Set.univ fun _ => Set.Icc 0 (row i)) ?_ ?_
    · exact Set.Finite.pi fun i => Set.Finite.pi fun _ => Set.finite_Icc (0 : ℤ) (row i)
    · rintro t ⟨h1, h2, _, _⟩ i _ j _
      refine ⟨h1 i j, ?_⟩
      rw [← h2 i]
      exact Finset.single_le_sum (f := fun j => t i j) (fun j _ => h1 i j) (Finset.mem_univ j)
  exact ⟨this.toFinset, by simp⟩

/-- **C94.** The draw of a degree-higher step is a probability distribution: a non-negative table, any intensities (also beyond the
clamp). -/
theorem C94_draw_is_a_law {m n : Nat} (s : Sampler m n) (hk : BothMargins s.constrained) (pick : Cell m n → Nat)
    (hb : generateBasis s.constrained s.fixed pick = some s.basis) (hne : s.basis ≠ []) (w : Fin m → Fin n → ℝ)
    (t : Table m n) (ht : Nonneg t) : higherMean s w t (fun _ => 1) = 1 ∧
    ∀ psi, (∀ o, 0 ≤ psi o) → 0 ≤ higherMean s w t psi := by
  have hlen : (0 : ℝ) < s.basis.length := by
    exact_mod_cast List.length_pos_of_ne_nil hne
  have key : ∀ idx ∈ Finset.range s.basis.length, ∃ a, (s.basis[idx]?).bind (fisherArgs w t) = some a ∧
      (∀ v, 0 ≤ a.pmf v) ∧ ∑ v ∈ a.support, a.pmf v = 1 := by
    intro idx hi
    have hi' := Finset.mem_range.1 hi
    have hget : s.basis[idx]? = some s.basis[idx] := List.getElem?_eq_getElem hi'
    have hmv : s.basis[idx] ∈ s.basis := List.getElem_mem hi'
    obtain ⟨a, b, h1, h2, ha, hb', hab, hba, hcm⟩ := both_basis_mem hk hb hmv
    refine ⟨_, by rw [hget, hcm, Option.bind_some, fisherArgs_corner w t h1 h2], ?_, ?_⟩
    · intro v
      have := safeCast_pos (Real.exp (w a.1 a.2 + w b.1 b.2 - w a.1 b.2 - w b.1 a.2))
      refine div_nonneg ?_ (Finset.sum_nonneg fun y _ => ?_)
      all_goals unfold FisherArgs.weight; positivity
    · unfold FisherArgs.pmf
      rw [← Finset.sum_div]
      refine div_self (ne_of_gt ?_)
      refine Finset.sum_pos' (fun v _ => ?_) ⟨t a.1 a.2, ?_, ?_⟩
      · have := safeCast_pos (Real.exp (w a.1 a.2 + w b.1 b.2 - w a.1 b.2 - w b.1 a.2))
        unfold FisherArgs.weight; positivity
      · rw [FisherArgs.support, Finset.mem_Icc]
        have := ht a.1 a.2; have := ht a.1 b.2; have := ht b.1 a.2; have := ht b.1 b.2
        simp only
        omega
      · rw [weight_eq _ _ _ _ (ht a.1 a.2) (ht a.1 b.2) (ht b.1 a.2) (ht b.1 b.2) _ _ rfl]
        have := safeCast_pos (Real.exp (w a.1 a.2 + w b.1 b.2 - w a.1 b.2 - w b.1 a.2))
        positivity
  constructor
  · unfold higherMean
    rw [Finset.sum_congr rfl (g := fun _ => (1 : ℝ))]
    · rw [Finset.sum_const, Finset.card_range, nsmul_eq_mul, mul_one]
      exact div_self hlen.ne'
    · intro idx hi
      obtain ⟨a, ha, _, h1⟩ := key idx hi
      simp only [ha, mul_one, h1]
  · intro psi hpsi
    unfold higherMean
    refine div_nonneg (Finset.sum_nonneg fun idx hi => ?_) hlen.le
    obtain ⟨a, ha, h0, _⟩ := key idx hi
    simp only [ha]
    exact Finset.sum_nonneg fun v _ => mul_nonneg (h0 v) (hpsi _)

/-- A 2×2 sampler with both margins constrained. -/
noncomputable def smallSampler : Sampler 2 2 where
  truth := fun _ _ => 1
  margins := updateMarginsFromTable (fun _ _ => 1 : Table 2 2) (fun _ => none)
  constrained := [[0], [0, 1], [1]]
  fixed := []
  basis := [cornerMove (0, 0) (1, 1)]
  logI := none

theorem smallSampler_basis : BothMargins smallSampler.constrained ∧
    generateBasis smallSampler.constrained smallSampler.fixed (fun _ => 0) = some smallSampler.basis := by
  refine ⟨⟨rfl, fun a => ?_⟩, by decide +kernel⟩
  simp only [smallSampler, List.mem_cons, List.not_mem_nil, or_false]; tauto

/-- The two tables with all margins `1`. -/
def tabI : Table 2 2 := fun i j => if i = j then 1 else 0
def tabS : Table 2 2 := fun i j => if i = j then 0 else 1

theorem small_fibre : (({tabI, tabS} : Finset (Table 2 2)) : Set (Table 2 2)) =
    Fibre (fun _ => 1) (fun _ => 1) [] (fun _ _ => 1) := by
  ext t
  simp only [Finset.coe_insert, Finset.coe_singleton, Set.mem_insert_iff, Set.mem_singleton_iff]
  constructor
  · rintro (rfl | rfl)
    · exact ⟨by unfold Nonneg; decide +kernel, by decide +kernel, by decide +kernel, by intro i j h; simp at h⟩
    · exact ⟨by unfold Nonneg; decide +kernel, by decide +kernel, by decide +kernel, by intro i j h; simp at h⟩
  · rintro ⟨h1, h2, h3, _⟩
    have r0 := h2 0; have r1 := h2 1; have c0 := h3 0; have c1 := h3 1
    simp only [rowSum, colSum, Fin.sum_univ_two] at r0 r1 c0 c1
    have p00 := h1 0 0; have p01 := h1 0 1; have p10 := h1 1 0; have p11 := h1 1 1
    rcases (by omega : t 0 0 = 0 ∨ t 0 0 = 1) with h | h
    · right
      funext i j
      fin_cases i <;> fin_cases j <;> simp [tabS] <;> omega
    · left
      funext i j
      fin_cases i <;> fin_cases j <;> simp [tabI] <;> omega

theorem small_mean (w : Fin 2 → Fin 2 → ℝ) (t : Table 2 2) (ht : t = tabI ∨ t = tabS) (psi : Option (Table 2 2 × Nat) → ℝ) :
    let om := safeCast (Real.exp (w 0 0 + w 1 1 - w 0 1 - w 1 0)) (1 / 1000000) 1000000
    higherMean smallSampler w t psi = (psi (some (tabS, 1)) + om * psi (some (tabI, 1))) / (1 + om) := by
  intro om
  have hargs : fisherArgs w t (cornerMove (0, 0) (1, 1)) = some ⟨2, 1, 1, om⟩ := by
    rw [fisherArgs_corner w t (by decide) (by decide)]
    rcases ht with rfl | rfl <;> simp [tabI, tabS, om]
  have hstep : ∀ v, smallSampler.step t (.higher 0 (some v)) =
      some (applyMove t (cornerMove (0, 0) (1, 1)) (v - t 0 0), 1) := by
    intro v
    have hd : distributionName [[0], [0, 1], [1]] = some "fishers_hypergeometric" := bothMargins_name smallSampler_basis.1
    simp only [Sampler.step, smallSampler, hd, if_true, List.getElem?_cons_zero]
    simp [degreeHigher_corner t (a := (0, 0)) (b := (1, 1)) (by decide) (by decide)]
  have hS : applyMove t (cornerMove (0, 0) (1, 1)) (0 - t 0 0) = tabS := by
    rcases ht with rfl | rfl <;> decide +kernel
  have hI : applyMove t (cornerMove (0, 0) (1, 1)) (1 - t 0 0) = tabI := by
    rcases ht with rfl | rfl <;> decide +kernel
  have hsupp : (⟨2, 1, 1, om⟩ : FisherArgs).support = {0, 1} := by
    unfold FisherArgs.support
    simp only
    decide +kernel
  have hb : smallSampler.basis = [cornerMove (0, 0) (1, 1)] := rfl
  unfold higherMean
  simp only [hb, List.length_singleton, Finset.range_one, Finset.sum_singleton, List.getElem?_cons_zero, Option.bind_some, hargs,
    hstep, hsupp, FisherArgs.pmf]
  rw [Finset.sum_pair (by decide), Finset.sum_pair (by decide), hS, hI]
  simp [FisherArgs.weight]
  ring

/-- **C94.** The code clamps the odds ratio at `10^6` before drawing; beyond the clamp the target is not invariant: intensities with odds
ratio `10^7`, one step moves the law. -/
theorem C94_clamped_false : ∃ (w : Fin 2 → Fin 2 → ℝ) (F : Finset (Table 2 2)) (psi : Option (Table 2 2 × Nat) → ℝ),
    ↑F = Fibre (fun _ => 1) (fun _ => 1) smallSampler.fixed smallSampler.truth ∧
    Real.exp (w 0 0 + w 1 1 - w 0 1 - w 1 0) = 10000000 ∧
    ∑ t ∈ F, target w t * higherMean smallSampler w t psi ≠ ∑ t ∈ F, target w t * psi (some (t, 1)) := by
  classical
  refine ⟨fun i j => if i = 0 ∧ j = 0 then Real.log 10000000 else 0, {tabI, tabS},
    fun o => if o = some (tabI, 1) then 1 else 0, small_fibre, ?_, ?_⟩
  · simp [Real.exp_log]
  · have hne : tabI ≠ tabS := by decide +kernel
    have hT1 : target (fun i j => if i = 0 ∧ j = 0 then Real.log 10000000 else 0) tabI = 10000000 := by
      unfold target tabI
      simp [Fin.prod_univ_two, Real.exp_log]
    have hT2 : target (fun i j => if i = 0 ∧ j = 0 then Real.log 10000000 else 0) tabS = 1 := by
      unfold target tabS
      simp [Fin.prod_univ_two]
    have hom : safeCast (Real.exp (Real.log 10000000)) (1 / 1000000) 1000000 = 1000000 := by
      rw [Real.exp_log (by norm_num)]
      unfold safeCast
      norm_num
    rw [Finset.sum_pair hne, Finset.sum_pair hne, small_mean _ _ (Or.inl rfl), small_mean _ _ (Or.inr rfl), hT1, hT2]
    simp [hne.symm, hom, -one_div]
    norm_num

/-- Non-vacuity of C94: a 2×2 fibre of two tables, intensities with odds ratio `2`. -/
example : ∑ t ∈ {tabI, tabS}, target (fun i j => if i = 0 ∧ j = 0 then Real.log 2 else 0) t *
      higherMean smallSampler (fun i j => if i = 0 ∧ j = 0 then Real.log 2 else 0) t (fun o => if o = some (tabI, 1) then 1 else 0) =
    ∑ t ∈ {tabI, tabS}, target (fun i j => if i = 0 ∧ j = 0 then Real.log 2 else 0) t *
      (fun o => if o = some (tabI, 1) then 1 else 0) (some (t, 1)) := by
  have h2 : Real.exp (Real.log 2) = 2 := Real.exp_log (by norm_num)
  have key : ∀ i₁ i₂ j₁ j₂ : Fin 2, i₁ < i₂ → j₁ < j₂ → i₁ = 0 ∧ i₂ = 1 ∧ j₁ = 0 ∧ j₂ = 1 := by decide
  refine C94_gibbs_invariant smallSampler smallSampler_basis.1 _ smallSampler_basis.2 (by simp [smallSampler]) _ ?_ ?_ _ _ _
    small_fibre _
  · intro i₁ i₂ j₁ j₂ h1 h2'
    obtain ⟨rfl, rfl, rfl, rfl⟩ := key _ _ _ _ h1 h2'
    simp [h2]; norm_num
  · intro i₁ i₂ j₁ j₂ h1 h2'
    obtain ⟨rfl, rfl, rfl, rfl⟩ := key _ _ _ _ h1 h2'
    simp [h2]; norm_num

end GeNSIT
