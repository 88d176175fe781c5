import Mathlib.Algebra.BigOperators.Fin
import Mathlib.Algebra.BigOperators.Field
import Mathlib.Algebra.Order.BigOperators.Ring.Finset
import Mathlib.Algebra.Order.Floor.Ring
import Mathlib.Data.Real.Basic
import Mathlib.Algebra.Order.Archimedean.Real.Basic
import Mathlib.Data.Nat.Factorial.Basic
import Mathlib.Data.Finset.Max
import Mathlib.Logic.Function.Iterate
import Mathlib.Tactic.Ring
import Mathlib.Tactic.Linarith
import Mathlib.Tactic.Positivity
import Mathlib.Tactic.NormNum
import Mathlib.Tactic.FieldSimp

/-!
# Property theorem C181 (the mode of a multinomial law)

`multinomial_mode` (`/repo/gensit/utils/probability_utils.py:209-239`), an implementation of Le Gall's algorithm.

Arithmetic is exact.  `torch.argmin` is any function that picks a least entry; a quotient with denominator zero is infinite, which holds if the random vector has no entry that is
exactly zero.
-/

open scoped BigOperators

namespace GeNSIT

variable {r : ℕ}

/-- The vectors `kis` and `fis` of the function. -/
structure ModeState (r : ℕ) where
  k : Fin r → ℤ
  f : Fin r → ℝ

/-- `torch.floor((n+r/2)*p)` (`probability_utils.py:214`). -/
noncomputable def modeStart (n : ℕ) (p : Fin r → ℝ) (i : Fin r) : ℤ := ⌊((n : ℝ) + (r : ℝ) / 2) * p i⌋

/-- The body of the first loop (`probability_utils.py:222-227`): the quotients are those of the current vectors. -/
noncomputable def modeUp (pick : (Fin r → WithTop ℝ) → Fin r) (s : ModeState r) : ModeState r :=
  let a := pick fun i => (((1 - s.f i) / ((s.k i : ℝ) + 1) : ℝ) : WithTop ℝ)
  ⟨Function.update s.k a (s.k a + 1), Function.update s.f a (s.f a - 1)⟩

/-- The body of the second loop (`probability_utils.py:232-237`). -/
noncomputable def modeDown (pick : (Fin r → WithTop ℝ) → Fin r) (s : ModeState r) : ModeState r :=
  let a := pick fun i => if s.k i = 0 then ⊤ else ((s.f i / (s.k i : ℝ) : ℝ) : WithTop ℝ)
  ⟨Function.update s.k a (s.k a - 1), Function.update s.f a (s.f a + 1)⟩

/-- The function, given the starting vectors: `n0` counts up to `n` in the first loop or down to it in the second. -/
noncomputable def modeLoop (pick : (Fin r → WithTop ℝ) → Fin r) (n : ℕ) (s : ModeState r) : ModeState r :=
  let n0 := ∑ i, s.k i
  (modeDown pick)^[(n0 - n).toNat] ((modeUp pick)^[(n - n0).toNat] s)

/-- `multinomial_mode(n, p)` with the random vector drawn in line 218. -/
noncomputable def multinomialMode (pick : (Fin r → WithTop ℝ) → Fin r) (n : ℕ) (p f : Fin r → ℝ) : Fin r → ℤ :=
  (modeLoop pick n ⟨modeStart n p, f⟩).k

/-- The algorithm the function cites: the vector holds the fractional parts instead. -/
noncomputable def leGallMode (pick : (Fin r → WithTop ℝ) → Fin r) (n : ℕ) (p : Fin r → ℝ) : Fin r → ℤ :=
  (modeLoop pick n ⟨modeStart n p, fun i => Int.fract (((n : ℝ) + (r : ℝ) / 2) * p i)⟩).k

/-! ### Specification -/

/-- A function that picks a least entry. -/
def Spec.IsArgmin (pick : (Fin r → WithTop ℝ) → Fin r) : Prop := ∀ (q : Fin r → WithTop ℝ) (i : Fin r), q (pick q) ≤ q i

/-- Probabilities. -/
def Spec.IsProbability (p : Fin r → ℝ) : Prop := (∀ i, 0 ≤ p i) ∧ ∑ i, p i = 1

/-- The multinomial probability of counts. -/
noncomputable def Spec.multinomialPmf (n : ℕ) (p : Fin r → ℝ) (k : Fin r → ℕ) : ℝ := (n.factorial : ℝ) * ∏ i, p i ^ k i / ((k i).factorial : ℝ)

/-- Counts with total `n` that no others exceed in probability. -/
def Spec.IsMode (n : ℕ) (p : Fin r → ℝ) (k : Fin r → ℤ) : Prop :=
  ∃ c : Fin r → ℕ, (∀ i, k i = c i) ∧ ∑ i, c i = n ∧ ∀ c' : Fin r → ℕ, ∑ i, c' i = n → Spec.multinomialPmf n p c' ≤ Spec.multinomialPmf n p c

/-! ### Lemmas: the local condition is global -/

/-- Terms `x^m/m!` are greatest at `k` if `k ≤ x ≤ k+1`. -/
theorem poisson_term_le {x : ℝ} {k : ℕ} (h1 : (k : ℝ) ≤ x) (h2 : x ≤ k + 1) (m : ℕ) : x ^ m / (m.factorial : ℝ) ≤ x ^ k / (k.factorial : ℝ) := by
  have hx : 0 ≤ x := le_trans (Nat.cast_nonneg k) h1
  have up : ∀ d : ℕ, x ^ (k + d) / ((k + d).factorial : ℝ) ≤ x ^ k / (k.factorial : ℝ) := by
    intro d
    induction d with
    | zero => exact le_rfl
    | succ d ih =>
      refine le_trans ?_ ih
      have e : x ^ (k + (d + 1)) / ((k + (d + 1)).factorial : ℝ) = (x ^ (k + d) / ((k + d).factorial : ℝ)) * (x / ((k + d + 1 : ℕ) : ℝ)) := by
        rw [← Nat.add_assoc, Nat.factorial_succ, pow_succ]
        push_cast
        have : ((k + d).factorial : ℝ) ≠ 0 := by positivity
        field_simp
      rw [e]
      refine mul_le_of_le_one_right (by positivity) ?_
      rw [div_le_one (by positivity)]
      push_cast
      have : (0 : ℝ) ≤ d := Nat.cast_nonneg d
      linarith
  have down : ∀ d : ℕ, d ≤ k → x ^ (k - d) / ((k - d).factorial : ℝ) ≤ x ^ k / (k.factorial : ℝ) := by
    intro d
    induction d with
    | zero => intro _; exact le_rfl
    | succ d ih =>
      intro hd
      refine le_trans ?_ (ih (by omega))
      obtain ⟨j, hj⟩ : ∃ j, k - d = j + 1 := ⟨k - d - 1, by omega⟩
      have hj' : k - (d + 1) = j := by omega
      rw [hj, hj']
      have e : x ^ (j + 1) / ((j + 1).factorial : ℝ) = (x ^ j / (j.factorial : ℝ)) * (x / ((j + 1 : ℕ) : ℝ)) := by
        rw [Nat.factorial_succ, pow_succ]
        push_cast
        have : (j.factorial : ℝ) ≠ 0 := by positivity
        field_simp
      rw [e]
      refine le_mul_of_one_le_right (by positivity) ?_
      rw [one_le_div (by positivity)]
      refine le_trans ?_ h1
      exact_mod_cast (by omega : j + 1 ≤ k)
  rcases le_total k m with h | h
  · obtain ⟨d, rfl⟩ := Nat.exists_eq_add_of_le h
    exact up d
  · have := down (k - m) (Nat.sub_le _ _)
    rwa [Nat.sub_sub_self h] at this

/-- The local condition of Finucan. -/
def LocalMode (p : Fin r → ℝ) (k : Fin r → ℤ) : Prop := ∀ i j, p i * k j ≤ p j * (k i + 1)

theorem isMode_of_local (n : ℕ) (p : Fin r → ℝ) (hp : Spec.IsProbability p) (k : Fin r → ℤ) (h0 : ∀ i, 0 ≤ k i) (hs : ∑ i, k i = n) (hl : LocalMode p k) :
    Spec.IsMode n p k := by
  obtain ⟨hp0, hp1⟩ := hp
  refine ⟨fun i => (k i).toNat, fun i => (Int.toNat_of_nonneg (h0 i)).symm, ?_, ?_⟩
  · have : ((∑ i, (k i).toNat : ℕ) : ℤ) = n := by
      rw [Nat.cast_sum, ← hs]
      exact Finset.sum_congr rfl fun i _ => Int.toNat_of_nonneg (h0 i)
    exact_mod_cast this
  intro c' hc'
  have hcast : ∀ i, (((k i).toNat : ℕ) : ℝ) = (k i : ℝ) := fun i => by
    have := Int.toNat_of_nonneg (h0 i)
    exact_mod_cast congrArg (fun z : ℤ => (z : ℝ)) this
  -- some probability is positive
  obtain ⟨i0, hi0⟩ : ∃ i, 0 < p i := by
    by_contra hcon
    push Not at hcon
    have : ∑ i, p i ≤ 0 := Finset.sum_nonpos fun i _ => hcon i
    rw [hp1] at this
    linarith
  by_cases hn : n = 0
  · subst hn
    have hz : ∀ i, k i = 0 := by
      have := (Finset.sum_eq_zero_iff_of_nonneg fun i _ => h0 i).1 (by simpa using hs)
      exact fun i => this i (Finset.mem_univ i)
    have hz' : ∀ i, c' i = 0 := fun i => (Finset.sum_eq_zero_iff.1 hc') i (Finset.mem_univ i)
    have : c' = fun i => (k i).toNat := by
      funext i
      rw [hz', hz]
      rfl
    rw [this]
  -- the multiplier
  obtain ⟨j0, -, hj0⟩ := Finset.exists_max_image (Finset.univ.filter fun i => 0 < p i) (fun i => (k i : ℝ) / p i) ⟨i0, by simp [hi0]⟩
  set lam : ℝ := (k j0 : ℝ) / p j0 with hlam
  have hmax : ∀ i, 0 < p i → (k i : ℝ) ≤ lam * p i := fun i hi => by
    have := hj0 i (by simp [hi])
    rwa [div_le_iff₀ hi] at this
  have hzero : ∀ i, p i = 0 → k i = 0 := by
    intro i hi
    have := hl i0 i
    rw [hi, zero_mul] at this
    have h2 : (0 : ℝ) ≤ (k i : ℝ) := by exact_mod_cast h0 i
    have h3 : (k i : ℝ) = 0 := by
      by_contra hne
      have : 0 < (k i : ℝ) := lt_of_le_of_ne h2 (Ne.symm hne)
      have := mul_pos hi0 this
      linarith
    exact_mod_cast h3
  have hj0p : 0 < p j0 := by
    by_contra hcon
    have he : p j0 = 0 := le_antisymm (not_lt.1 hcon) (hp0 j0)
    -- then the maximum over positive probabilities would be attained outside
    have : lam = 0 := by rw [hlam, he, div_zero]
    have hall : ∀ i, k i = 0 := by
      intro i
      rcases (hp0 i).lt_or_eq with h | h
      · have h4 := hmax i h
        rw [this, zero_mul] at h4
        have : (0 : ℝ) ≤ (k i : ℝ) := by exact_mod_cast h0 i
        exact_mod_cast le_antisymm h4 this
      · exact hzero i h.symm
    rw [Finset.sum_congr rfl fun i _ => hall i] at hs
    simp at hs
    exact hn (by exact_mod_cast hs.symm)
  have hlow : ∀ i, (k i : ℝ) ≤ lam * p i := by
    intro i
    rcases (hp0 i).lt_or_eq with h | h
    · exact hmax i h
    · rw [hzero i h.symm, ← h]; simp
  have hupp : ∀ i, lam * p i ≤ k i + 1 := by
    intro i
    have := hl i j0
    rw [hlam, div_mul_eq_mul_div, div_le_iff₀ hj0p]
    linarith
  have hlpos : 0 < lam := by
    by_contra hcon
    have hall : ∀ i, k i = 0 := by
      intro i
      have h4 := le_trans (hlow i) (mul_nonpos_of_nonpos_of_nonneg (not_lt.1 hcon) (hp0 i))
      have : (0 : ℝ) ≤ (k i : ℝ) := by exact_mod_cast h0 i
      exact_mod_cast le_antisymm h4 this
    rw [Finset.sum_congr rfl fun i _ => hall i] at hs
    simp at hs
    exact hn (by exact_mod_cast hs.symm)
  have hk : ∑ i, (k i).toNat = n := by
    have : ((∑ i, (k i).toNat : ℕ) : ℤ) = n := by
      rw [Nat.cast_sum, ← hs]
      exact Finset.sum_congr rfl fun i _ => Int.toNat_of_nonneg (h0 i)
    exact_mod_cast this
  have hprod : ∀ c : Fin r → ℕ, ∑ i, c i = n → ∏ i, (lam * p i) ^ c i / ((c i).factorial : ℝ) = lam ^ n * ∏ i, p i ^ c i / ((c i).factorial : ℝ) := by
    intro c hc
    rw [← hc, ← Finset.prod_pow_eq_pow_sum, ← Finset.prod_mul_distrib]
    refine Finset.prod_congr rfl fun i _ => ?_
    rw [mul_pow, mul_div_assoc]
  have hle : ∏ i, (lam * p i) ^ c' i / ((c' i).factorial : ℝ) ≤ ∏ i, (lam * p i) ^ (k i).toNat / (((k i).toNat).factorial : ℝ) := by
    refine Finset.prod_le_prod (fun i _ => ?_) fun i _ => ?_
    · exact div_nonneg (pow_nonneg (mul_nonneg hlpos.le (hp0 i)) _) (by positivity)
    · exact poisson_term_le (by rw [hcast]; exact hlow i) (by rw [hcast]; exact hupp i) _
  rw [hprod c' hc', hprod _ hk] at hle
  unfold Spec.multinomialPmf
  exact mul_le_mul_of_nonneg_left (le_of_mul_le_mul_left hle (pow_pos hlpos n)) (by positivity)

/-! ### Lemmas: the loops -/

theorem sum_update_add (k : Fin r → ℤ) (a : Fin r) (d : ℤ) : ∑ i, Function.update k a (k a + d) i = (∑ i, k i) + d := by
  rw [Finset.sum_update_of_mem (Finset.mem_univ a), ← Finset.add_sum_erase _ _ (Finset.mem_univ a), Finset.sdiff_singleton_eq_erase]
  ring

theorem modeUp_sum (pick : (Fin r → WithTop ℝ) → Fin r) (s : ModeState r) : ∑ i, (modeUp pick s).k i = (∑ i, s.k i) + 1 := sum_update_add _ _ _

theorem modeDown_sum (pick : (Fin r → WithTop ℝ) → Fin r) (s : ModeState r) : ∑ i, (modeDown pick s).k i = (∑ i, s.k i) - 1 := by
  rw [sub_eq_add_neg]
  exact sum_update_add _ _ _

theorem modeUp_nonneg (pick : (Fin r → WithTop ℝ) → Fin r) (s : ModeState r) (h : ∀ i, 0 ≤ s.k i) (i : Fin r) : 0 ≤ (modeUp pick s).k i := by
  simp only [modeUp]
  by_cases hi : i = pick fun i => (((1 - s.f i) / ((s.k i : ℝ) + 1) : ℝ) : WithTop ℝ)
  · rw [← hi, Function.update_self]
    have := h i
    omega
  · rw [Function.update_of_ne hi]
    exact h i

/-- The entry picked on the way down is positive, if there is one. -/
theorem modeDown_pick (pick : (Fin r → WithTop ℝ) → Fin r) (hpick : Spec.IsArgmin pick) (s : ModeState r) (h : ∀ i, 0 ≤ s.k i) (hs : 0 < ∑ i, s.k i) :
    0 < s.k (pick fun i => if s.k i = 0 then ⊤ else ((s.f i / (s.k i : ℝ) : ℝ) : WithTop ℝ)) := by
  obtain ⟨j, hj⟩ : ∃ j, s.k j ≠ 0 := by
    by_contra hcon
    push Not at hcon
    rw [Finset.sum_congr rfl fun i _ => hcon i] at hs
    simp at hs
  refine lt_of_le_of_ne (h _) fun he => ?_
  have := hpick (fun i => if s.k i = 0 then ⊤ else ((s.f i / (s.k i : ℝ) : ℝ) : WithTop ℝ)) j
  beta_reduce at this
  rw [if_pos he.symm, if_neg hj] at this
  exact absurd (top_le_iff.1 this) (WithTop.coe_ne_top)

theorem modeDown_nonneg (pick : (Fin r → WithTop ℝ) → Fin r) (hpick : Spec.IsArgmin pick) (s : ModeState r) (h : ∀ i, 0 ≤ s.k i) (hs : 0 < ∑ i, s.k i) (i : Fin r) :
    0 ≤ (modeDown pick s).k i := by
  have hp := modeDown_pick pick hpick s h hs
  simp only [modeDown]
  by_cases hi : i = pick fun i => if s.k i = 0 then ⊤ else ((s.f i / (s.k i : ℝ) : ℝ) : WithTop ℝ)
  · rw [hi, Function.update_self]
    omega
  · rw [Function.update_of_ne hi]
    exact h i

/-- An induction over both loops. -/
theorem modeLoop_induction (pick : (Fin r → WithTop ℝ) → Fin r) (hpick : Spec.IsArgmin pick) (n : ℕ) (P : ModeState r → Prop)
    (hup : ∀ s, (∀ i, 0 ≤ s.k i) → P s → P (modeUp pick s)) (hdown : ∀ s, (∀ i, 0 ≤ s.k i) → 0 < ∑ i, s.k i → P s → P (modeDown pick s))
    (s : ModeState r) (h0 : ∀ i, 0 ≤ s.k i) (hP : P s) :
    P (modeLoop pick n s) ∧ (∀ i, 0 ≤ (modeLoop pick n s).k i) ∧ ∑ i, (modeLoop pick n s).k i = n := by
  have U : ∀ (m : ℕ) (s : ModeState r), (∀ i, 0 ≤ s.k i) → P s →
      P ((modeUp pick)^[m] s) ∧ (∀ i, 0 ≤ ((modeUp pick)^[m] s).k i) ∧ ∑ i, ((modeUp pick)^[m] s).k i = (∑ i, s.k i) + m := by
    intro m
    induction m with
    | zero => intro s h hp; exact ⟨hp, h, by simp⟩
    | succ m ih =>
      intro s h hp
      rw [Function.iterate_succ_apply]
      obtain ⟨h1, h2, h3⟩ := ih (modeUp pick s) (modeUp_nonneg pick s h) (hup s h hp)
      refine ⟨h1, h2, ?_⟩
      rw [h3, modeUp_sum]
      push_cast
      ring
  have D : ∀ (m : ℕ) (s : ModeState r), (∀ i, 0 ≤ s.k i) → (m : ℤ) ≤ ∑ i, s.k i → P s →
      P ((modeDown pick)^[m] s) ∧ (∀ i, 0 ≤ ((modeDown pick)^[m] s).k i) ∧ ∑ i, ((modeDown pick)^[m] s).k i = (∑ i, s.k i) - m := by
    intro m
    induction m with
    | zero => intro s h _ hp; exact ⟨hp, h, by simp⟩
    | succ m ih =>
      intro s h hm hp
      have hpos : 0 < ∑ i, s.k i := by push_cast at hm; omega
      rw [Function.iterate_succ_apply]
      obtain ⟨h1, h2, h3⟩ := ih (modeDown pick s) (modeDown_nonneg pick hpick s h hpos) (by rw [modeDown_sum]; push_cast at hm; omega) (hdown s h hpos hp)
      refine ⟨h1, h2, ?_⟩
      rw [h3, modeDown_sum]
      push_cast
      ring
  simp only [modeLoop]
  have hs0 : 0 ≤ ∑ i, s.k i := Finset.sum_nonneg fun i _ => h0 i
  obtain ⟨u1, u2, u3⟩ := U ((n - ∑ i, s.k i).toNat) s h0 hP
  obtain ⟨d1, d2, d3⟩ := D ((∑ i, s.k i) - n).toNat _ u2 (by rw [u3]; omega) u1
  refine ⟨d1, d2, ?_⟩
  rw [d3, u3]
  omega

theorem modeStart_nonneg (n : ℕ) (p : Fin r → ℝ) (hp : ∀ i, 0 ≤ p i) (i : Fin r) : 0 ≤ modeStart n p i :=
  Int.floor_nonneg.2 (mul_nonneg (by positivity) (hp i))

theorem modeStart_local (n : ℕ) (p : Fin r → ℝ) (hp : ∀ i, 0 ≤ p i) : LocalMode p (modeStart n p) := by
  intro i j
  have h1 := Int.floor_le (((n : ℝ) + (r : ℝ) / 2) * p j)
  have h2 := (Int.lt_floor_add_one (((n : ℝ) + (r : ℝ) / 2) * p i)).le
  calc p i * (modeStart n p j : ℝ) ≤ p i * (((n : ℝ) + (r : ℝ) / 2) * p j) := mul_le_mul_of_nonneg_left h1 (hp i)
    _ = p j * (((n : ℝ) + (r : ℝ) / 2) * p i) := by ring
    _ ≤ p j * (modeStart n p i + 1) := mul_le_mul_of_nonneg_left h2 (hp j)

/-! ### Theorems -/

/-- **C181 (counts).**  Whatever the random vector, the result is a vector of counts with total `n`: both loops end. -/
theorem C181_counts (pick : (Fin r → WithTop ℝ) → Fin r) (hpick : Spec.IsArgmin pick) (n : ℕ) (p f : Fin r → ℝ) (hp : Spec.IsProbability p) :
    (∀ i, 0 ≤ multinomialMode pick n p f i) ∧ ∑ i, multinomialMode pick n p f i = n :=
  (modeLoop_induction pick hpick n (fun _ => True) (fun _ _ _ => trivial) (fun _ _ _ _ => trivial) ⟨modeStart n p, f⟩ (modeStart_nonneg n p hp.1) trivial).2

/-- **C181 (when the first guess fits).**  If the rounded expectations add up to `n`, the result is a mode, whatever the random vector. -/
theorem C181_first_guess (pick : (Fin r → WithTop ℝ) → Fin r) (n : ℕ) (p f : Fin r → ℝ) (hp : Spec.IsProbability p)
    (hs : ∑ i, ⌊((n : ℝ) + (r : ℝ) / 2) * p i⌋ = (n : ℤ)) : Spec.IsMode n p (multinomialMode pick n p f) := by
  have e : multinomialMode pick n p f = modeStart n p := by
    simp only [multinomialMode, modeLoop]
    have : ∑ i, modeStart n p i = (n : ℤ) := hs
    simp only [this]
    simp
  rw [e]
  exact isMode_of_local n p hp _ (modeStart_nonneg n p hp.1) hs (modeStart_local n p hp.1)

/-- **C181 (the algorithm cited).**  With the fractional parts in place of the random vector the result is always a mode. -/
theorem C181_le_gall (pick : (Fin r → WithTop ℝ) → Fin r) (hpick : Spec.IsArgmin pick) (n : ℕ) (p : Fin r → ℝ) (hp : Spec.IsProbability p) :
    Spec.IsMode n p (leGallMode pick n p) := by
  set lam : ℝ := (n : ℝ) + (r : ℝ) / 2 with hlam
  have hl0 : 0 ≤ lam := by positivity
  have hlpos : 0 < r → 0 < lam := fun h => by
    have : (0 : ℝ) < r := by exact_mod_cast h
    positivity
  obtain ⟨⟨h1, _⟩, h2, h3⟩ := modeLoop_induction pick hpick n (fun s => LocalMode p s.k ∧ ∀ i, s.f i = lam * p i - s.k i) (fun s h0 hs => by
    obtain ⟨hl, hf⟩ := hs
    have hr : 0 < r := lt_of_le_of_lt (Nat.zero_le _) (pick fun _ => 0).2
    simp only [modeUp]
    generalize ha : (pick fun i => (((1 - s.f i) / ((s.k i : ℝ) + 1) : ℝ) : WithTop ℝ)) = a
    have hmin : ∀ i, p i * (s.k a + 1) ≤ p a * (s.k i + 1) := by
      intro i
      have := hpick (fun i => (((1 - s.f i) / ((s.k i : ℝ) + 1) : ℝ) : WithTop ℝ)) i
      rw [ha] at this
      rw [WithTop.coe_le_coe] at this
      have hka : (0 : ℝ) < (s.k a : ℝ) + 1 := by have : (0 : ℝ) ≤ (s.k a : ℝ) := by exact_mod_cast h0 a
                                                 linarith
      have hki : (0 : ℝ) < (s.k i : ℝ) + 1 := by have : (0 : ℝ) ≤ (s.k i : ℝ) := by exact_mod_cast h0 i
                                                 linarith
      rw [div_le_div_iff₀ hka hki, hf, hf] at this
      have h5 : lam * (p i * (s.k a + 1)) ≤ lam * (p a * (s.k i + 1)) := by nlinarith
      exact le_of_mul_le_mul_left h5 (hlpos hr)
    refine ⟨fun i j => ?_, fun i => ?_⟩
    · by_cases hi : i = a
      · subst hi
        by_cases hj : j = i
        · subst hj
          simp only [Function.update_self]
          push_cast
          nlinarith [hp.1 j]
        · simp only [Function.update_self, Function.update_of_ne hj]
          push_cast
          have := hl i j
          nlinarith [hp.1 j]
      · by_cases hj : j = a
        · subst hj
          simp only [Function.update_self, Function.update_of_ne hi]
          push_cast
          exact hmin i
        · simp only [Function.update_of_ne hi, Function.update_of_ne hj]
          exact hl i j
    · by_cases hi : i = a
      · subst hi
        simp only [Function.update_self]
        push_cast
        rw [hf]
        ring
      · simp only [Function.update_of_ne hi]
        exact hf i) (fun s h0 hpos hs => by
    obtain ⟨hl, hf⟩ := hs
    have hr : 0 < r := lt_of_le_of_lt (Nat.zero_le _) (pick fun _ => 0).2
    have hka := modeDown_pick pick hpick s h0 hpos
    simp only [modeDown]
    generalize ha : (pick fun i => if s.k i = 0 then ⊤ else ((s.f i / (s.k i : ℝ) : ℝ) : WithTop ℝ)) = a at hka ⊢
    have hka' : (0 : ℝ) < (s.k a : ℝ) := by exact_mod_cast hka
    have hmin : ∀ j, p a * s.k j ≤ p j * s.k a := by
      intro j
      by_cases hj : s.k j = 0
      · rw [hj]
        simp only [Int.cast_zero, mul_zero]
        exact mul_nonneg (hp.1 j) hka'.le
      have := hpick (fun i => if s.k i = 0 then ⊤ else ((s.f i / (s.k i : ℝ) : ℝ) : WithTop ℝ)) j
      rw [ha] at this
      rw [if_neg hka.ne', if_neg hj, WithTop.coe_le_coe] at this
      have hkj : (0 : ℝ) < (s.k j : ℝ) := by exact_mod_cast lt_of_le_of_ne (h0 j) (Ne.symm hj)
      rw [div_le_div_iff₀ hka' hkj, hf, hf] at this
      have h5 : lam * (p a * s.k j) ≤ lam * (p j * s.k a) := by nlinarith
      exact le_of_mul_le_mul_left h5 (hlpos hr)
    refine ⟨fun i j => ?_, fun i => ?_⟩
    · by_cases hi : i = a
      · subst hi
        by_cases hj : j = i
        · subst hj
          simp only [Function.update_self]
          push_cast
          nlinarith [hp.1 j]
        · simp only [Function.update_self, Function.update_of_ne hj]
          push_cast
          have := hmin j
          linarith
      · by_cases hj : j = a
        · subst hj
          simp only [Function.update_self, Function.update_of_ne hi]
          push_cast
          have := hl i j
          nlinarith [hp.1 i]
        · simp only [Function.update_of_ne hi, Function.update_of_ne hj]
          exact hl i j
    · by_cases hi : i = a
      · subst hi
        simp only [Function.update_self]
        push_cast
        rw [hf]
        ring
      · simp only [Function.update_of_ne hi]
        exact hf i) ⟨modeStart n p, fun i => Int.fract (lam * p i)⟩ (modeStart_nonneg n p hp.1)
    ⟨modeStart_local n p hp.1, fun i => rfl⟩
  exact isMode_of_local n p hp _ h2 h3 h1

/-- "The result is a mode" is false: with one trial and probabilities 0.38, 0.31, 0.31 the random vector can select the second outcome. -/
theorem C181_false : ¬ ∀ (pick : (Fin 3 → WithTop ℝ) → Fin 3) (n : ℕ) (p f : Fin 3 → ℝ), Spec.IsArgmin pick → Spec.IsProbability p → (∀ i, 0 < f i ∧ f i < 1) →
    Spec.IsMode n p (multinomialMode pick n p f) := by
  intro h
  obtain ⟨pick, hpick⟩ : ∃ pick : (Fin 3 → WithTop ℝ) → Fin 3, Spec.IsArgmin pick := by
    have : ∀ q : Fin 3 → WithTop ℝ, ∃ a, ∀ i, q a ≤ q i := fun q => by
      obtain ⟨a, -, ha⟩ := Finset.exists_min_image Finset.univ q ⟨0, Finset.mem_univ 0⟩
      exact ⟨a, fun i => ha i (Finset.mem_univ i)⟩
    choose pick hp using this
    exact ⟨pick, hp⟩
  set p : Fin 3 → ℝ := fun i => if i = 0 then 19 / 50 else 31 / 100
  set f : Fin 3 → ℝ := fun i => if i = 1 then 9 / 10 else 1 / 10
  have p0 : p 0 = 19 / 50 := if_pos rfl
  have p1 : p 1 = 31 / 100 := if_neg (by decide)
  have p2 : p 2 = 31 / 100 := if_neg (by decide)
  have f0 : f 0 = 1 / 10 := if_neg (by decide)
  have f1 : f 1 = 9 / 10 := if_pos rfl
  have f2 : f 2 = 1 / 10 := if_neg (by decide)
  clear_value p f
  have hp : Spec.IsProbability p := by
    refine ⟨fun i => ?_, ?_⟩
    · match i with
      | 0 => norm_num [p0, p1, p2]
      | 1 => norm_num [p0, p1, p2]
      | 2 => norm_num [p0, p1, p2]
    · rw [Fin.sum_univ_three]; norm_num [p0, p1, p2]
  have hstart : modeStart 1 p = fun _ => 0 := by
    funext i
    unfold modeStart
    rw [Int.floor_eq_zero_iff, Set.mem_Ico]
    match i with
    | 0 => norm_num [p0, p1, p2]
    | 1 => norm_num [p0, p1, p2]
    | 2 => norm_num [p0, p1, p2]
  have hres : multinomialMode pick 1 p f = Function.update (fun _ => 0) 1 1 := by
    unfold multinomialMode
    rw [hstart]
    have hsum : ∑ _i : Fin 3, (0 : ℤ) = 0 := by simp
    simp only [modeLoop, hsum]
    change (modeUp pick ⟨fun _ => 0, f⟩).k = _
    simp only [modeUp]
    have ha : (pick fun i => (((1 - f i) / (((0 : ℤ) : ℝ) + 1) : ℝ) : WithTop ℝ)) = 1 := by
      have := hpick (fun i => (((1 - f i) / (((0 : ℤ) : ℝ) + 1) : ℝ) : WithTop ℝ)) 1
      generalize (pick fun i => (((1 - f i) / (((0 : ℤ) : ℝ) + 1) : ℝ) : WithTop ℝ)) = a at this
      rw [WithTop.coe_le_coe] at this
      revert this
      match a with
      | 0 => intro h; norm_num [f0, f1, f2] at h
      | 1 => intro _; rfl
      | 2 => intro h; norm_num [f0, f1, f2] at h
    rw [ha]
    rfl
  obtain ⟨c, hc, hs, hm⟩ := h pick 1 p f hpick hp (fun i => by
    match i with
    | 0 => norm_num [f0, f1, f2]
    | 1 => norm_num [f0, f1, f2]
    | 2 => norm_num [f0, f1, f2])
  rw [hres] at hc
  have h0 : c 0 = 0 := by have := hc 0; simp at this; omega
  have h1 : c 1 = 1 := by have := hc 1; simp at this; omega
  have h2 : c 2 = 0 := by have := hc 2; simp at this; omega
  have := hm (fun i => if i = 0 then 1 else 0) (by rw [Fin.sum_univ_three]; rfl)
  unfold Spec.multinomialPmf at this
  have h20 : ¬ (2 : Fin 3) = 0 := by decide
  rw [Fin.prod_univ_three, Fin.prod_univ_three, h0, h1, h2] at this
  beta_reduce at this
  rw [if_neg h20] at this
  norm_num [p0, p1, p2] at this

/-- The hypothesis of `C181_first_guess` holds for two equally likely outcomes and odd totals. -/
example (m : ℕ) : ∑ i : Fin 2, ⌊(((2 * m + 1 : ℕ) : ℝ) + ((2 : ℕ) : ℝ) / 2) * (if i = 0 then (1 / 2 : ℝ) else 1 / 2)⌋ = (((2 * m + 2 : ℕ)) : ℤ) := by
  have : ((((2 * m + 1 : ℕ) : ℝ) + ((2 : ℕ) : ℝ) / 2) * (1 / 2 : ℝ)) = ((m + 1 : ℤ) : ℝ) := by push_cast; ring
  rw [Fin.sum_univ_two]
  simp only [ite_self, this, Int.floor_intCast]
  push_cast
  ring

end GeNSIT
