import Verif.Sim.Model
import Verif.Sim.Spec
import Mathlib.Analysis.SpecialFunctions.ExpDeriv
import Mathlib.Analysis.SpecialFunctions.Log.Deriv
import Mathlib.Tactic.FieldSimp
import Mathlib.Tactic.Positivity
import Mathlib.Tactic.Linarith

namespace GeNSIT

open Finset

theorem texp_coe (v : ℝ) : texp (v : WithBot ℝ) = Real.exp v := rfl

theorem texp_bot : texp ⊥ = 0 := rfl

theorem texp_tlog {v : ℝ} (h : 0 ≤ v) : texp (tlog v) = v := by
  unfold tlog
  split
  · next h0 => rw [texp_bot, h0]
  · next h0 => rw [texp_coe, Real.exp_log (lt_of_le_of_ne h (Ne.symm h0))]

theorem texp_add (a b : WithBot ℝ) : texp (a + b) = texp a * texp b := by
  induction a using WithBot.recBotCoe with
  | bot => rw [WithBot.bot_add, texp_bot, zero_mul]
  | coe a =>
    induction b using WithBot.recBotCoe with
    | bot => rw [WithBot.add_bot, texp_bot, mul_zero]
    | coe b => rw [← WithBot.coe_add, texp_coe, texp_coe, texp_coe, Real.exp_add]

theorem sumExp_pos {n : ℕ} (hn : 0 < n) (f : ℕ → ℝ) :
    0 < ∑ k ∈ range n, Real.exp (f k) :=
  sum_pos (fun _ _ => Real.exp_pos _) ⟨0, mem_range.2 hn⟩

theorem sumExp2_pos {m n : ℕ} (hm : 0 < m) (hn : 0 < n) (f : ℕ → ℕ → ℝ) :
    0 < ∑ h ∈ range m, ∑ k ∈ range n, Real.exp (f h k) :=
  sum_pos (fun h _ => sumExp_pos hn (f h)) ⟨0, mem_range.2 hm⟩

theorem exp_sub_lse {n : ℕ} (hn : 0 < n) (f : ℕ → ℝ) (v : ℝ) :
    Real.exp (v - lse n f) = Real.exp v / ∑ k ∈ range n, Real.exp (f k) := by
  unfold lse
  rw [Real.exp_sub, Real.exp_log (sumExp_pos hn f)]

theorem exp_sub_lse2 {m n : ℕ} (hm : 0 < m) (hn : 0 < n) (f : ℕ → ℕ → ℝ) (v : ℝ) :
    Real.exp (v - lse2 m n f) =
      Real.exp v / ∑ h ∈ range m, ∑ k ∈ range n, Real.exp (f h k) := by
  unfold lse2
  rw [Real.exp_sub, Real.exp_log (sumExp2_pos hm hn f)]

namespace SimArgs

variable (a : SimArgs)

theorem demandAt_eq {s i : ℕ} (hi : i < a.I) : a.demandAt s i = a.demand i := by
  unfold demandAt
  rw [Nat.mul_add_mod', Nat.mod_eq_of_lt hi]

/-- The cost row that the tiled matrix provides for origin `i` of sweep `s`. -/
theorem costTiled_eq {s i j : ℕ} (hJ : j < a.J) :
    a.costTiled s i j = a.cost ((s * a.I + i) / a.sweep) j := by
  have hJ0 : 0 < a.J := by omega
  have h1 : ((s * a.I + i) * a.J + j) / (a.sweep * a.J) = (s * a.I + i) / a.sweep := by
    rw [Nat.mul_comm a.sweep, ← Nat.div_div_eq_div_mul, Nat.add_comm,
      Nat.add_mul_div_right _ _ hJ0, Nat.div_eq_of_lt hJ, Nat.zero_add]
  have h2 : ((s * a.I + i) * a.J + j) % (a.sweep * a.J) % a.J = j := by
    rw [Nat.mod_mul_left_mod, Nat.add_comm, Nat.add_mul_mod_self_right, Nat.mod_eq_of_lt hJ]
  simp only [costTiled, h1, h2]

theorem flowP_eq {t s i : ℕ} (hi : i < a.I) (hJ : 0 < a.J) (hd : 0 ≤ a.demand i)
    (hG : 0 ≤ a.grandTotal) (j : ℕ) :
    a.flowP t s i j = a.demand i * (Real.exp (a.utilityP t s i j) /
      ∑ k ∈ range a.J, Real.exp (a.utilityP t s i k)) * a.grandTotal := by
  unfold flowP logFlowP
  rw [texp_add, texp_add, demandAt_eq a hi, texp_tlog hd, texp_tlog hG, texp_coe,
    exp_sub_lse hJ]

theorem flowT_eq {t s i : ℕ} (hI : 0 < a.I) (hJ : 0 < a.J)
    (hG : 0 ≤ a.grandTotal) (j : ℕ) :
    a.flowT t s i j = (Real.exp (a.utilityT t s i j) /
      ∑ h ∈ range a.I, ∑ k ∈ range a.J, Real.exp (a.utilityT t s h k)) * a.grandTotal := by
  unfold flowT logFlowT
  rw [texp_add, texp_tlog hG, texp_coe, exp_sub_lse2 hI hJ]

end SimArgs

/-! ### Derivatives -/

theorem hasDerivAt_update_apply (x : ℕ → ℝ) (j k : ℕ) :
    HasDerivAt (fun v => Function.update x j v k) (if k = j then 1 else 0) (x j) := by
  by_cases h : k = j
  · subst h
    simpa using hasDerivAt_id' (x k)
  · have : (fun v => Function.update x j v k) = fun _ => x k := by
      funext v; exact Function.update_of_ne h v x
    rw [this, if_neg h]
    exact hasDerivAt_const _ _

theorem hasDerivAt_sum_x (J : ℕ) (x : ℕ → ℝ) {j : ℕ} (hj : j < J) :
    HasDerivAt (fun v => ∑ k ∈ range J, Function.update x j v k) 1 (x j) := by
  have h := HasDerivAt.fun_sum (u := range J) (A := fun k v => Function.update x j v k)
    (A' := fun k => if k = j then (1 : ℝ) else 0) (x := x j)
    (fun k _ => hasDerivAt_update_apply x j k)
  rwa [sum_ite_eq', if_pos (mem_range.2 hj)] at h

theorem hasDerivAt_exp_update (c d : ℝ) (x : ℕ → ℝ) (j k : ℕ) :
    HasDerivAt (fun v => Real.exp (c * Function.update x j v k - d))
      (if k = j then c * Real.exp (c * x k - d) else 0) (x j) := by
  have h := ((hasDerivAt_update_apply x j k).const_mul c).sub_const d |>.exp
  simp only [Function.update_eq_self] at h
  refine h.congr_deriv ?_
  by_cases hk : k = j
  · simp [hk, mul_comm]
  · simp [hk]

theorem hasDerivAt_sum_exp (J : ℕ) (x : ℕ → ℝ) {j : ℕ} (hj : j < J) :
    HasDerivAt (fun v => ∑ k ∈ range J, Real.exp (Function.update x j v k))
      (Real.exp (x j)) (x j) := by
  have h := HasDerivAt.fun_sum (u := range J)
    (A := fun k v => Real.exp (1 * Function.update x j v k - 0))
    (A' := fun k => if k = j then 1 * Real.exp (1 * x k - 0) else 0) (x := x j)
    (fun k _ => hasDerivAt_exp_update 1 0 x j k)
  rw [sum_ite_eq', if_pos (mem_range.2 hj)] at h
  simpa using h

theorem hasDerivAt_lse2 (I J : ℕ) (alpha beta : ℝ) (cost : ℕ → ℕ → ℝ) (x : ℕ → ℝ) {j : ℕ}
    (hI : 0 < I) (hj : j < J) :
    HasDerivAt (fun v => lse2 I J (fun i k => alpha * Function.update x j v k - beta * cost i k))
      ((∑ i ∈ range I, alpha * Real.exp (alpha * x j - beta * cost i j)) /
        ∑ h ∈ range I, ∑ k ∈ range J, Real.exp (alpha * x k - beta * cost h k)) (x j) := by
  have h1 : ∀ i ∈ range I, HasDerivAt
      (fun v => ∑ k ∈ range J, Real.exp (alpha * Function.update x j v k - beta * cost i k))
      (alpha * Real.exp (alpha * x j - beta * cost i j)) (x j) := by
    intro i _
    have h := HasDerivAt.fun_sum (u := range J)
      (A := fun k v => Real.exp (alpha * Function.update x j v k - beta * cost i k))
      (A' := fun k => if k = j then alpha * Real.exp (alpha * x k - beta * cost i k) else 0)
      (x := x j) (fun k _ => hasDerivAt_exp_update alpha (beta * cost i k) x j k)
    rwa [sum_ite_eq', if_pos (mem_range.2 hj)] at h
  have h2 := HasDerivAt.fun_sum h1
  have h3 := h2.log (by
    simp only [Function.update_eq_self]
    exact (sumExp2_pos hI (by omega : 0 < J) _).ne')
  simp only [Function.update_eq_self] at h3
  exact h3

/-- `lse` over the origins for a fixed destination. -/
theorem hasDerivAt_lse_col (I : ℕ) (alpha beta : ℝ) (cost : ℕ → ℕ → ℝ) (x : ℕ → ℝ) (j k : ℕ)
    (hI : 0 < I) :
    HasDerivAt (fun v => lse I (fun i => alpha * Function.update x j v k - beta * cost i k))
      (if k = j then alpha else 0) (x j) := by
  have h2 := HasDerivAt.fun_sum (u := range I)
    (A := fun i v => Real.exp (alpha * Function.update x j v k - beta * cost i k))
    (A' := fun i => if k = j then alpha * Real.exp (alpha * x k - beta * cost i k) else 0)
    (x := x j) (fun i _ => hasDerivAt_exp_update alpha (beta * cost i k) x j k)
  have hpos := sumExp_pos hI (fun i => alpha * x k - beta * cost i k)
  have h3 := h2.log (by
    simp only [Function.update_eq_self]
    exact hpos.ne')
  simp only [Function.update_eq_self] at h3
  refine h3.congr_deriv ?_
  by_cases hk : k = j
  · simp only [hk, if_true] at hpos ⊢
    rw [← mul_sum, mul_div_assoc, div_self hpos.ne', mul_one]
  · simp [hk]

end GeNSIT
