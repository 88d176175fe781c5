import Mathlib.Analysis.SpecificLimits.Basic
import Mathlib.Analysis.Asymptotics.SpecificAsymptotics
import Verif.Chain.Fisher
import Verif.Basis.ConnProps

/-!
# C151: the table chain converges to its target

Repeated degree-higher steps (`ContingencyTable_MCMC.py:612-669`, `:754-775`, called once per iteration from the experiments): the law of the table
after `k` steps and its limit.
-/

set_option linter.unusedSimpArgs false
set_option linter.unusedVariables false
set_option linter.unusedSectionVars false

namespace GeNSIT

open Spec Filter Topology

/-! ## An abstract convergence theorem -/

section Abstract

variable {α : Type*}

/-- An averaging operator on the functions on a finite set that keeps a positive weight and joins all points. -/
structure Averaging (C : Finset α) (P : (α → ℝ) → α → ℝ) (p : α → ℝ) (E : α → α → Prop) : Prop where
  affine : ∀ (f : α → ℝ) (a b : ℝ), ∀ x ∈ C, P (fun y => a + b * f y) x = a + b * P f x
  mono : ∀ f g : α → ℝ, (∀ y ∈ C, f y ≤ g y) → ∀ x ∈ C, P f x ≤ P g x
  pos : ∀ x ∈ C, 0 < p x
  inv : ∀ f : α → ℝ, ∑ x ∈ C, p x * P f x = ∑ x ∈ C, p x * f x
  edge : ∀ x ∈ C, ∀ y ∈ C, E x y → ∃ δ > 0, ∀ f : α → ℝ, (∀ z ∈ C, 0 ≤ f z) → δ * f y ≤ P f x
  loop : ∀ x ∈ C, E x x
  conn : ∀ x ∈ C, ∀ y ∈ C, Relation.ReflTransGen (fun u v => u ∈ C ∧ v ∈ C ∧ E u v) x y

variable {C : Finset α} {P : (α → ℝ) → α → ℝ} {p : α → ℝ} {E : α → α → Prop}

theorem Averaging.const (h : Averaging C P p E) (c : ℝ) : ∀ x ∈ C, P (fun _ => c) x = c := by
  intro x hx
  have := h.affine (fun _ => 0) c 0 x hx
  simpa using this

theorem Averaging.nonneg (h : Averaging C P p E) (n : ℕ) (f : α → ℝ) (hf : ∀ x ∈ C, 0 ≤ f x) : ∀ x ∈ C, 0 ≤ P^[n] f x := by
  induction n with
  | zero => simpa using hf
  | succ n ih =>
    rw [Function.iterate_succ_apply']
    intro x hx
    have h1 := h.mono (fun _ => 0) (P^[n] f) ih x hx
    rwa [h.const 0 x hx] at h1

theorem Averaging.affineN (h : Averaging C P p E) (n : ℕ) (f : α → ℝ) (a b : ℝ) :
    ∀ x ∈ C, P^[n] (fun y => a + b * f y) x = a + b * P^[n] f x := by
  induction n with
  | zero => simp
  | succ n ih =>
    intro x hx
    rw [Function.iterate_succ_apply', Function.iterate_succ_apply', ← h.affine _ a b x hx]
    exact le_antisymm (h.mono _ _ (fun y hy => (ih y hy).le) x hx) (h.mono _ _ (fun y hy => (ih y hy).ge) x hx)

theorem Averaging.invN (h : Averaging C P p E) (n : ℕ) (f : α → ℝ) : ∑ x ∈ C, p x * P^[n] f x = ∑ x ∈ C, p x * f x := by
  induction n with
  | zero => simp
  | succ n ih => rw [Function.iterate_succ_apply', h.inv, ih]

/-- `y` contributes to the mean after `n` steps from `x`. -/
def Contributes (C : Finset α) (P : (α → ℝ) → α → ℝ) (n : ℕ) (x y : α) : Prop :=
  ∃ δ > 0, ∀ f : α → ℝ, (∀ z ∈ C, 0 ≤ f z) → δ * f y ≤ P^[n] f x

theorem Averaging.contributes_step (h : Averaging C P p E) {n : ℕ} {x z y : α} (hx : x ∈ C) (hz : z ∈ C) (hE : E x z)
    (hc : Contributes C P n z y) : Contributes C P (n + 1) x y := by
  obtain ⟨d, hd, h1⟩ := h.edge x hx z hz hE
  obtain ⟨e, he, h2⟩ := hc
  refine ⟨d * e, mul_pos hd he, fun f hf => ?_⟩
  rw [Function.iterate_succ_apply', mul_assoc]
  exact (mul_le_mul_of_nonneg_left (h2 f hf) hd.le).trans (h1 _ (h.nonneg n f hf))

theorem Averaging.contributes (h : Averaging C P p E) {x y : α} (hx : x ∈ C) (hy : y ∈ C) :
    ∃ N, ∀ n ≥ N, Contributes C P n x y := by
  suffices hs : ∃ N, Contributes C P N x y by
    obtain ⟨N, hN⟩ := hs
    refine ⟨N, fun n hn => ?_⟩
    induction n, hn using Nat.le_induction with
    | base => exact hN
    | succ n _ ih => exact h.contributes_step hx hx (h.loop x hx) ih
  induction h.conn x hx y hy using Relation.ReflTransGen.head_induction_on with
  | refl => exact ⟨0, 1, one_pos, fun f _ => by simp⟩
  | head hac _ ih =>
    obtain ⟨N, hN⟩ := ih hac.2.1
    exact ⟨N + 1, h.contributes_step hac.1 hac.2.1 hac.2.2 hN⟩

theorem Averaging.uniform (h : Averaging C P p E) : ∃ N > 0, ∃ ε > 0, ∀ x ∈ C, ∀ y ∈ C, ∀ f : α → ℝ, (∀ z ∈ C, 0 ≤ f z) →
    ε * f y ≤ P^[N] f x := by
  classical
  have h1 : ∀ q : α × α, ∃ N, q ∈ C ×ˢ C → ∀ n ≥ N, Contributes C P n q.1 q.2 := by
    intro q
    by_cases hq : q ∈ C ×ˢ C
    · obtain ⟨h1, h2⟩ := Finset.mem_product.1 hq
      obtain ⟨N, hN⟩ := h.contributes h1 h2
      exact ⟨N, fun _ => hN⟩
    · exact ⟨0, fun h => absurd h hq⟩
  choose N hN using h1
  set M : ℕ := (C ×ˢ C).sup N + 1 with hM
  have h2 : ∀ q : α × α, ∃ δ > 0, q ∈ C ×ˢ C → ∀ f : α → ℝ, (∀ z ∈ C, 0 ≤ f z) → δ * f q.2 ≤ P^[M] f q.1 := by
    intro q
    by_cases hq : q ∈ C ×ˢ C
    · obtain ⟨δ, hd, h3⟩ := hN q hq M (by have := Finset.le_sup (f := N) hq; omega)
      exact ⟨δ, hd, fun _ => h3⟩
    · exact ⟨1, one_pos, fun h => absurd h hq⟩
  choose δ hd hδ using h2
  refine ⟨M, by omega, ?_⟩
  rcases (C ×ˢ C).eq_empty_or_nonempty with he | hne
  · refine ⟨1, one_pos, fun x hx y hy => ?_⟩
    have : (x, y) ∈ C ×ˢ C := Finset.mem_product.2 ⟨hx, hy⟩
    rw [he] at this
    simp at this
  · refine ⟨(C ×ˢ C).inf' hne δ, (Finset.lt_inf'_iff hne).2 fun q _ => hd q, fun x hx y hy f hf => ?_⟩
    have hq : (x, y) ∈ C ×ˢ C := Finset.mem_product.2 ⟨hx, hy⟩
    exact (mul_le_mul_of_nonneg_right (Finset.inf'_le δ hq) (hf y hy)).trans (hδ (x, y) hq f hf)

/-- All values differ by at most `D`. -/
def OscLe (C : Finset α) (g : α → ℝ) (D : ℝ) : Prop := ∀ x ∈ C, ∀ y ∈ C, g x - g y ≤ D

theorem Averaging.osc_one (h : Averaging C P p E) {g : α → ℝ} {D : ℝ} (ho : OscLe C g D) : OscLe C (P g) D := by
  intro x hx y hy
  obtain ⟨a, ha, ha'⟩ := C.exists_max_image g ⟨x, hx⟩
  obtain ⟨b, hb, hb'⟩ := C.exists_min_image g ⟨x, hx⟩
  have h1 := h.mono g (fun _ => g a) ha' x hx
  have h2 := h.mono (fun _ => g b) g hb' y hy
  rw [h.const _ x hx] at h1
  rw [h.const _ y hy] at h2
  have := ho a ha b hb
  linarith

theorem Averaging.osc_many (h : Averaging C P p E) {g : α → ℝ} {D : ℝ} (ho : OscLe C g D) (n : ℕ) : OscLe C (P^[n] g) D := by
  induction n with
  | zero => simpa using ho
  | succ n ih => rw [Function.iterate_succ_apply']; exact h.osc_one ih

theorem Averaging.osc_contract (h : Averaging C P p E) {N : ℕ} {ε : ℝ} (he : 0 < ε)
    (hu : ∀ x ∈ C, ∀ y ∈ C, ∀ f : α → ℝ, (∀ z ∈ C, 0 ≤ f z) → ε * f y ≤ P^[N] f x) {g : α → ℝ} {D : ℝ} (ho : OscLe C g D) :
    OscLe C (P^[N] g) ((1 - ε) * D) := by
  intro x hx y hy
  obtain ⟨a, ha, ha'⟩ := C.exists_max_image g ⟨x, hx⟩
  obtain ⟨b, hb, hb'⟩ := C.exists_min_image g ⟨x, hx⟩
  have hN : ∀ z ∈ C, P^[N] (fun _ => g a) z = g a := by
    intro z hz
    have := h.affineN N (fun _ => 0) (g a) 0 z hz
    simpa using this
  have e1 : P^[N] (fun u => g a + (-1) * g u) x = g a + (-1) * P^[N] g x := h.affineN N g (g a) (-1) x hx
  have e2 : P^[N] (fun u => -g b + 1 * g u) y = -g b + 1 * P^[N] g y := h.affineN N g (-g b) 1 y hy
  have i1 := h.nonneg N (fun u => g a + (-1) * g u) (fun z hz => by have := ha' z hz; linarith) x hx
  have i2 := hu y hy a ha (fun u => -g b + 1 * g u) (fun z hz => by have := hb' z hz; linarith)
  have i3 := hu x hx a ha (fun _ => 1) (fun _ _ => zero_le_one)
  have i4 : P^[N] (fun _ => (1 : ℝ)) x = 1 := by
    have := h.affineN N (fun _ => 0) 1 0 x hx
    simpa using this
  rw [i4] at i3
  have h5 := ho a ha b hb
  rw [e1] at i1
  rw [e2] at i2
  have h6 : (1 - ε) * (g a - g b) ≤ (1 - ε) * D := mul_le_mul_of_nonneg_left h5 (by linarith)
  nlinarith

/-- Geometric convergence to the weighted mean. -/
theorem Averaging.geometric (h : Averaging C P p E) (f : α → ℝ) : ∃ (N : ℕ) (ρ D : ℝ), 0 < N ∧ 0 ≤ ρ ∧ ρ < 1 ∧ ∀ x ∈ C, ∀ n,
    |P^[n] f x - (∑ y ∈ C, p y * f y) / ∑ y ∈ C, p y| ≤ D * ρ ^ (n / N) := by
  rcases C.eq_empty_or_nonempty with rfl | hne
  · exact ⟨1, 0, 0, by omega, le_refl _, by norm_num, by simp⟩
  obtain ⟨N, hN, ε, he, hu⟩ := h.uniform
  obtain ⟨a, ha, ha'⟩ := C.exists_max_image f hne
  obtain ⟨b, hb, hb'⟩ := C.exists_min_image f hne
  have h0 : OscLe C f (f a - f b) := fun x hx y hy => by have := ha' x hx; have := hb' y hy; linarith
  have hk : ∀ k, OscLe C (P^[N * k] f) ((f a - f b) * (1 - ε) ^ k) := by
    intro k
    induction k with
    | zero => simpa using h0
    | succ k ih =>
      have := h.osc_contract he hu ih
      rw [← Function.iterate_add_apply, show N + N * k = N * (k + 1) by ring] at this
      rw [pow_succ]
      convert this using 1
      ring
  have hρ : ε ≤ 1 := by
    have i3 := hu a ha a ha (fun _ => 1) (fun _ _ => zero_le_one)
    have i4 : P^[N] (fun _ => (1 : ℝ)) a = 1 := by
      have := h.affineN N (fun _ => 0) 1 0 a ha
      simpa using this
    linarith
  refine ⟨N, 1 - ε, f a - f b, hN, by linarith, by linarith, fun x hx n => ?_⟩
  have hosc : OscLe C (P^[n] f) ((f a - f b) * (1 - ε) ^ (n / N)) := by
    have := h.osc_many (hk (n / N)) (n % N)
    rw [← Function.iterate_add_apply, Nat.mod_add_div] at this
    exact this
  have hS : 0 < ∑ y ∈ C, p y := Finset.sum_pos h.pos hne
  have hL : P^[n] f x - (∑ y ∈ C, p y * f y) / ∑ y ∈ C, p y = (∑ y ∈ C, p y * (P^[n] f x - P^[n] f y)) / ∑ y ∈ C, p y := by
    rw [← h.invN n f]
    simp only [mul_sub, Finset.sum_sub_distrib, ← Finset.sum_mul]
    field_simp
  rw [hL, abs_le]
  constructor
  · rw [le_div_iff₀ hS, Finset.mul_sum]
    refine Finset.sum_le_sum fun y hy => ?_
    have := hosc y hy x hx
    have := h.pos y hy
    nlinarith
  · rw [div_le_iff₀ hS, Finset.mul_sum]
    refine Finset.sum_le_sum fun y hy => ?_
    have := hosc x hx y hy
    have := h.pos y hy
    nlinarith

theorem Averaging.tendsto (h : Averaging C P p E) (f : α → ℝ) {x : α} (hx : x ∈ C) :
    Tendsto (fun n => P^[n] f x) atTop (𝓝 ((∑ y ∈ C, p y * f y) / ∑ y ∈ C, p y)) := by
  obtain ⟨N, ρ, D, hN, h0, h1, hb⟩ := h.geometric f
  rw [tendsto_iff_norm_sub_tendsto_zero]
  refine squeeze_zero (fun _ => norm_nonneg _) (fun n => hb x hx n) ?_
  have : Tendsto (fun n : ℕ => D * ρ ^ (n / N)) atTop (𝓝 (D * 0)) :=
    ((tendsto_pow_atTop_nhds_zero_of_lt_one h0 h1).comp (Nat.tendsto_div_const_atTop hN.ne')).const_mul D
  simpa using this

end Abstract

/-! ## Model -/

/-- The mean of `f` of the table after `k` degree-higher steps from `t` (`ContingencyTable_MCMC.py:754-775`, one call per iteration, each with fresh
random numbers); a failed step would count as 0 (it never fails, C94). -/
noncomputable def chainMean {m n : Nat} (s : Sampler m n) (w : Fin m → Fin n → ℝ) : ℕ → (Table m n → ℝ) → Table m n → ℝ
  | 0, f, t => f t
  | k + 1, f, t => higherMean s w t fun o => match o with
    | some (t', _) => chainMean s w k f t'
    | none => 0

/-! ## Specification -/

/-- The mean of `f` under the target law conditioned on the tables in `C`. -/
noncomputable def Spec.condMean {m n : Nat} (w : Fin m → Fin n → ℝ) (C : Finset (Table m n)) (f : Table m n → ℝ) : ℝ :=
  (∑ t ∈ C, target w t * f t) / ∑ t ∈ C, target w t

/-- The odds ratios of the intensities over all 2×2 rectangles are in the range the code allows. -/
def Spec.OddsInRange {m n : Nat} (w : Fin m → Fin n → ℝ) : Prop :=
  ∀ i₁ i₂ j₁ j₂, i₁ < i₂ → j₁ < j₂ → 1 / 1000000 ≤ Real.exp (w i₁ j₁ + w i₂ j₂ - w i₁ j₂ - w i₂ j₁) ∧
    Real.exp (w i₁ j₁ + w i₂ j₂ - w i₁ j₂ - w i₂ j₁) ≤ 1000000

/-! ## Proof -/

/-- One step. -/
noncomputable def stepMean {m n : Nat} (s : Sampler m n) (w : Fin m → Fin n → ℝ) (f : Table m n → ℝ) (t : Table m n) : ℝ :=
  higherMean s w t fun o => match o with
    | some (t', _) => f t'
    | none => 0

theorem chainMean_eq {m n : Nat} (s : Sampler m n) (w : Fin m → Fin n → ℝ) (k : ℕ) (f : Table m n → ℝ) :
    chainMean s w k f = (stepMean s w)^[k] f := by
  induction k with
  | zero => rfl
  | succ k ih =>
    rw [Function.iterate_succ_apply', ← ih]
    rfl

noncomputable def cornerArgs {m n : Nat} (w : Fin m → Fin n → ℝ) (a b : Cell m n) (t : Table m n) : FisherArgs :=
  ⟨t a.1 a.2 + t a.1 b.2 + t b.1 a.2 + t b.1 b.2, t a.1 a.2 + t a.1 b.2, t a.1 a.2 + t b.1 a.2,
    safeCast (Real.exp (w a.1 a.2 + w b.1 b.2 - w a.1 b.2 - w b.1 a.2)) (1 / 1000000) 1000000⟩

section Rect

variable {m n : Nat} (w : Fin m → Fin n → ℝ) {a b : Cell m n}

theorem mem_support_iff (h1 : a.1 < b.1) (h2 : a.2 < b.2) {t : Table m n} (ht : Nonneg t) (v : Int) :
    v ∈ (cornerArgs w a b t).support ↔ Nonneg (applyMove t (cornerMove a b) (v - t a.1 a.2)) := by
  rw [corner_nonneg_iff ht h1 h2, FisherArgs.support, Finset.mem_Icc]
  simp only [cornerArgs]
  omega

theorem corner_weight_pos (h1 : a.1 < b.1) (h2 : a.2 < b.2) {t : Table m n} (ht : Nonneg t) {v : Int} (hv : v ∈ (cornerArgs w a b t).support) :
    0 < (cornerArgs w a b t).weight v := by
  rw [mem_support_iff w h1 h2 ht, corner_nonneg_iff ht h1 h2] at hv
  have hom := safeCast_pos (Real.exp (w a.1 a.2 + w b.1 b.2 - w a.1 b.2 - w b.1 a.2))
  rw [weight_eq v (t a.1 a.2 + t a.1 b.2 - v) (t a.1 a.2 + t b.1 a.2 - v) (t b.1 b.2 - t a.1 a.2 + v) (by omega) (by omega) (by omega) (by omega)
    (safeCast (Real.exp (w a.1 a.2 + w b.1 b.2 - w a.1 b.2 - w b.1 a.2)) (1 / 1000000) 1000000) _ (by
      unfold cornerArgs; congr 1 <;> ring)]
  positivity

theorem corner_pmf (h1 : a.1 < b.1) (h2 : a.2 < b.2) {t : Table m n} (ht : Nonneg t) :
    (∀ v ∈ (cornerArgs w a b t).support, 0 < (cornerArgs w a b t).pmf v) ∧ ∑ v ∈ (cornerArgs w a b t).support, (cornerArgs w a b t).pmf v = 1 := by
  have hself : t a.1 a.2 ∈ (cornerArgs w a b t).support := by
    rw [mem_support_iff w h1 h2 ht, corner_nonneg_iff ht h1 h2]
    have := ht a.1 a.2; have := ht a.1 b.2; have := ht b.1 a.2; have := ht b.1 b.2
    omega
  have hZ : 0 < ∑ y ∈ (cornerArgs w a b t).support, (cornerArgs w a b t).weight y :=
    Finset.sum_pos (fun v hv => corner_weight_pos w h1 h2 ht hv) ⟨_, hself⟩
  constructor
  · intro v hv
    exact div_pos (corner_weight_pos w h1 h2 ht hv) hZ
  · unfold FisherArgs.pmf
    rw [← Finset.sum_div]
    exact div_self hZ.ne'

theorem applyMove_add (h1 : a.1 < b.1) (h2 : a.2 < b.2) (t : Table m n) (e e' : Int) :
    applyMove (applyMove t (cornerMove a b) e) (cornerMove a b) e' = applyMove t (cornerMove a b) (e + e') := by
  funext i j
  rw [corner_effect _ h1 h2, corner_effect _ h1 h2, corner_effect _ h1 h2]
  ring

theorem applyMove_zero (h1 : a.1 < b.1) (h2 : a.2 < b.2) (t : Table m n) : applyMove t (cornerMove a b) 0 = t := by
  funext i j
  rw [corner_effect _ h1 h2]
  ring

theorem line_reaches (h1 : a.1 < b.1) (h2 : a.2 < b.2) {basis : List (Move m n)} (hm : cornerMove a b ∈ basis) {t : Table m n} (ht : Nonneg t)
    (e : Int) (he : Nonneg (applyMove t (cornerMove a b) e)) : Reaches basis t (applyMove t (cornerMove a b) e) := by
  have key : ∀ (sg : Int), (sg = 1 ∨ sg = -1) → ∀ k : ℕ, Nonneg (applyMove t (cornerMove a b) (k * sg)) →
      Reaches basis t (applyMove t (cornerMove a b) (k * sg)) := by
    intro sg hsg k
    induction k with
    | zero =>
      intro _
      rw [Nat.cast_zero, zero_mul, applyMove_zero h1 h2]
      exact Relation.ReflTransGen.refl
    | succ k ih =>
      intro hn
      have hk : Nonneg (applyMove t (cornerMove a b) (k * sg)) := by
        rw [corner_nonneg_iff ht h1 h2] at hn ⊢
        have := ht a.1 a.2; have := ht a.1 b.2; have := ht b.1 a.2; have := ht b.1 b.2
        push_cast at hn
        rcases hsg with rfl | rfl <;> omega
      refine (ih hk).tail ⟨_, hm, sg, hsg, ?_, hn⟩
      rw [applyMove_add h1 h2]
      congr 1
      push_cast
      ring
  rcases le_total 0 e with h | h
  · have := key 1 (Or.inl rfl) e.toNat
    rw [mul_one, Int.toNat_of_nonneg h] at this
    exact this he
  · have := key (-1) (Or.inr rfl) (-e).toNat
    rw [Int.toNat_of_nonneg (by omega), mul_neg_one, neg_neg] at this
    exact this he

end Rect

section Chain

variable {m n : Nat} (s : Sampler m n) (hk : BothMargins s.constrained) (pick : Cell m n → Nat)
  (hb : generateBasis s.constrained s.fixed pick = some s.basis) (hne : s.basis ≠ []) (w : Fin m → Fin n → ℝ)

include hk hb

theorem reaches_nonneg {t0 t : Table m n} (h0 : Nonneg t0) (h : Reaches s.basis t0 t) : Nonneg t := by
  induction h with
  | refl => exact h0
  | tail _ h _ => obtain ⟨_, _, _, _, _, h⟩ := h; exact h

theorem reaches_fibre {t0 t : Table m n} (h0 : t0 ∈ Fibre (rowSum t0) (colSum t0) s.fixed s.truth) (h : Reaches s.basis t0 t) :
    t ∈ Fibre (rowSum t0) (colSum t0) s.fixed s.truth := by
  induction h with
  | refl => exact h0
  | tail _ h ih =>
    obtain ⟨mv, hmv, e, _, rfl, hn⟩ := h
    obtain ⟨_, p1, p2, p3⟩ := ih
    obtain ⟨q1, q2, _, q4⟩ := generated_move_preserves (Or.inr (Or.inr hk)) hb hmv _ e
    refine ⟨hn, fun i => (q1 ((hk.2 _).mpr (by simp)) i).trans (p1 i), fun j => (q2 ((hk.2 _).mpr (by simp)) j).trans (p2 j), ?_⟩
    intro i j hij
    rw [q4 i j hij]; exact p3 i j hij

theorem unitStep_symm {t t' : Table m n} (ht : Nonneg t) (h : UnitStep s.basis t t') : UnitStep s.basis t' t := by
  obtain ⟨mv, hmv, e, he, rfl, hn⟩ := h
  obtain ⟨a, b, h1, h2, _, _, _, _, rfl⟩ := both_basis_mem hk hb hmv
  refine ⟨_, hmv, -e, by omega, ?_, ht⟩
  rw [applyMove_add h1 h2, add_neg_cancel, applyMove_zero h1 h2]

theorem reaches_symm {t t' : Table m n} (ht : Nonneg t) (h : Reaches s.basis t t') : Reaches s.basis t' t := by
  induction h with
  | refl => exact Relation.ReflTransGen.refl
  | tail h1 h2 ih => exact Relation.ReflTransGen.head (unitStep_symm s hk pick hb (reaches_nonneg s hk pick hb ht h1) h2) ih

include hne in
/-- One index of the basis. -/
theorem stepMean_eq : ∃ A B : ℕ → Cell m n,
    (∀ idx ∈ Finset.range s.basis.length, (A idx).1 < (B idx).1 ∧ (A idx).2 < (B idx).2 ∧ s.basis[idx]? = some (cornerMove (A idx) (B idx))) ∧
    ∀ f t, stepMean s w f t = (∑ idx ∈ Finset.range s.basis.length, ∑ v ∈ (cornerArgs w (A idx) (B idx) t).support,
      (cornerArgs w (A idx) (B idx) t).pmf v * f (applyMove t (cornerMove (A idx) (B idx)) (v - t (A idx).1 (A idx).2))) / s.basis.length := by
  classical
  have h : ∀ idx : ℕ, idx < s.basis.length → ∃ q : Cell m n × Cell m n, q.1.1 < q.2.1 ∧ q.1.2 < q.2.2 ∧ s.basis[idx]? = some (cornerMove q.1 q.2) := by
    intro idx hi
    obtain ⟨a, b, h1, h2, _, _, _, _, hcm⟩ := both_basis_mem hk hb (List.getElem_mem hi)
    exact ⟨(a, b), h1, h2, by rw [List.getElem?_eq_getElem hi, hcm]⟩
  have h' : ∀ idx : ℕ, ∃ q : Cell m n × Cell m n, idx < s.basis.length → q.1.1 < q.2.1 ∧ q.1.2 < q.2.2 ∧ s.basis[idx]? = some (cornerMove q.1 q.2) := by
    intro idx
    by_cases hi : idx < s.basis.length
    · obtain ⟨q, hq⟩ := h idx hi
      exact ⟨q, fun _ => hq⟩
    · obtain ⟨q, _⟩ := h 0 (List.length_pos_of_ne_nil hne)
      exact ⟨q, fun h => absurd h hi⟩
  choose q hq using h'
  refine ⟨fun i => (q i).1, fun i => (q i).2, fun idx hi => hq idx (Finset.mem_range.1 hi), fun f t => ?_⟩
  unfold stepMean higherMean
  congr 1
  refine Finset.sum_congr rfl fun idx hi => ?_
  obtain ⟨h1, h2, h3⟩ := hq idx (Finset.mem_range.1 hi)
  rw [h3, Option.bind_some, fisherArgs_corner w t h1 h2]
  simp only
  refine Finset.sum_congr rfl fun v hv => ?_
  have hd := bothMargins_name hk
  have : s.step t (.higher idx (some v)) = some (applyMove t (cornerMove (q idx).1 (q idx).2) (v - t (q idx).1.1 (q idx).1.2), 1) := by
    simp only [Sampler.step, hd, if_true, h3]
    simp [degreeHigher_corner t h1 h2]
  rw [this]
  rfl

include hne in
theorem chain_averaging (hw : OddsInRange w) {t0 : Table m n} (h0 : Nonneg t0) (C : Finset (Table m n)) (hC : ∀ t, t ∈ C ↔ Reaches s.basis t0 t) :
    Averaging C (stepMean s w) (target w) (fun t t' => ∃ mv ∈ s.basis, ∃ e : Int, t' = applyMove t mv e) := by
  obtain ⟨A, B, hAB, hstep⟩ := stepMean_eq s hk pick hb hne w
  have hlen : (0 : ℝ) < s.basis.length := by exact_mod_cast List.length_pos_of_ne_nil hne
  have hnn : ∀ t ∈ C, Nonneg t := fun t ht => reaches_nonneg s hk pick hb h0 ((hC t).1 ht)
  have hcl : ∀ t ∈ C, ∀ a b : Cell m n, a.1 < b.1 → a.2 < b.2 → cornerMove a b ∈ s.basis → ∀ e, Nonneg (applyMove t (cornerMove a b) e) →
      applyMove t (cornerMove a b) e ∈ C := by
    intro t ht a b h1 h2 hm e he
    rw [hC] at ht ⊢
    exact ht.trans (line_reaches h1 h2 hm (hnn t ((hC t).2 ht)) e he)
  have hin : ∀ t ∈ C, ∀ idx ∈ Finset.range s.basis.length, ∀ v ∈ (cornerArgs w (A idx) (B idx) t).support,
      applyMove t (cornerMove (A idx) (B idx)) (v - t (A idx).1 (A idx).2) ∈ C := by
    intro t ht idx hi v hv
    obtain ⟨h1, h2, h3⟩ := hAB idx hi
    exact hcl t ht _ _ h1 h2 (List.mem_of_getElem? h3) _ ((mem_support_iff w h1 h2 (hnn t ht) v).1 hv)
  constructor
  · intro f c d t ht
    rw [hstep, hstep, div_eq_iff hlen.ne', add_mul, mul_assoc, div_mul_cancel₀ _ hlen.ne', Finset.mul_sum]
    have : ∀ idx ∈ Finset.range s.basis.length, ∑ v ∈ (cornerArgs w (A idx) (B idx) t).support, (cornerArgs w (A idx) (B idx) t).pmf v *
        (c + d * f (applyMove t (cornerMove (A idx) (B idx)) (v - t (A idx).1 (A idx).2))) =
        c + d * ∑ v ∈ (cornerArgs w (A idx) (B idx) t).support, (cornerArgs w (A idx) (B idx) t).pmf v *
          f (applyMove t (cornerMove (A idx) (B idx)) (v - t (A idx).1 (A idx).2)) := by
      intro idx hi
      obtain ⟨h1, h2, _⟩ := hAB idx hi
      have hp := (corner_pmf w h1 h2 (hnn t ht)).2
      simp only [mul_add, Finset.sum_add_distrib]
      rw [← Finset.sum_mul, hp, one_mul, Finset.mul_sum]
      congr 1
      exact Finset.sum_congr rfl fun v _ => by ring
    rw [Finset.sum_congr rfl this, Finset.sum_add_distrib, Finset.sum_const, Finset.card_range, nsmul_eq_mul]
    ring
  · intro f g hfg t ht
    rw [hstep, hstep, div_le_div_iff_of_pos_right hlen]
    refine Finset.sum_le_sum fun idx hi => Finset.sum_le_sum fun v hv => ?_
    obtain ⟨h1, h2, _⟩ := hAB idx hi
    exact mul_le_mul_of_nonneg_left (hfg _ (hin t ht idx hi v hv)) ((corner_pmf w h1 h2 (hnn t ht)).1 v hv).le
  · intro t _; exact target_pos w t
  · intro f
    simp only [hstep]
    have hidx : ∀ idx ∈ Finset.range s.basis.length, ∑ t ∈ C, target w t * ∑ v ∈ (cornerArgs w (A idx) (B idx) t).support,
        (cornerArgs w (A idx) (B idx) t).pmf v * f (applyMove t (cornerMove (A idx) (B idx)) (v - t (A idx).1 (A idx).2)) =
        ∑ t ∈ C, target w t * f t := by
      intro idx hi
      obtain ⟨h1, h2, h3⟩ := hAB idx hi
      exact rectangle_balance w h1 h2 (hw _ _ _ _ h1 h2).1 (hw _ _ _ _ h1 h2).2 C hnn
        (fun t ht e he => hcl t ht _ _ h1 h2 (List.mem_of_getElem? h3) e he) (cornerArgs w (A idx) (B idx)) (fun t => fisherArgs_corner w t h1 h2) f
    calc _ = (∑ t ∈ C, ∑ idx ∈ Finset.range s.basis.length, target w t * ∑ v ∈ (cornerArgs w (A idx) (B idx) t).support,
          (cornerArgs w (A idx) (B idx) t).pmf v * f (applyMove t (cornerMove (A idx) (B idx)) (v - t (A idx).1 (A idx).2))) / s.basis.length := by
          rw [Finset.sum_div]
          exact Finset.sum_congr rfl fun t _ => by rw [← Finset.mul_sum, mul_div_assoc]
      _ = _ := by
          rw [Finset.sum_comm, Finset.sum_congr rfl hidx, Finset.sum_const, Finset.card_range, nsmul_eq_mul]
          field_simp
  · rintro t ht t' ht' ⟨mv, hmv, e, rfl⟩
    obtain ⟨idx, hi, hget⟩ := List.getElem_of_mem hmv
    have hir := Finset.mem_range.2 hi
    obtain ⟨h1, h2, h3⟩ := hAB idx hir
    have hcm : mv = cornerMove (A idx) (B idx) := by
      rw [List.getElem?_eq_getElem hi, hget] at h3
      exact Option.some.inj h3
    subst hcm
    have hv : t (A idx).1 (A idx).2 + e ∈ (cornerArgs w (A idx) (B idx) t).support := by
      rw [mem_support_iff w h1 h2 (hnn t ht), add_sub_cancel_left]
      exact hnn _ ht'
    refine ⟨(cornerArgs w (A idx) (B idx) t).pmf (t (A idx).1 (A idx).2 + e) / s.basis.length,
      div_pos ((corner_pmf w h1 h2 (hnn t ht)).1 _ hv) hlen, fun f hf => ?_⟩
    have hterm : ∀ i ∈ Finset.range s.basis.length, ∀ v ∈ (cornerArgs w (A i) (B i) t).support, 0 ≤ (cornerArgs w (A i) (B i) t).pmf v *
        f (applyMove t (cornerMove (A i) (B i)) (v - t (A i).1 (A i).2)) := by
      intro i hi v hv
      obtain ⟨g1, g2, _⟩ := hAB i hi
      exact mul_nonneg ((corner_pmf w g1 g2 (hnn t ht)).1 v hv).le (hf _ (hin t ht i hi v hv))
    rw [hstep, div_mul_eq_mul_div, div_le_div_iff_of_pos_right hlen]
    refine le_trans ?_ (Finset.single_le_sum (fun i hi => Finset.sum_nonneg (hterm i hi)) hir)
    refine le_trans ?_ (Finset.single_le_sum (hterm idx hir) hv)
    rw [add_sub_cancel_left]
  · intro t ht
    obtain ⟨mv, hmv⟩ := List.exists_mem_of_ne_nil _ hne
    obtain ⟨a, b, h1, h2, _, _, _, _, rfl⟩ := both_basis_mem hk hb hmv
    exact ⟨_, hmv, 0, (applyMove_zero h1 h2 t).symm⟩
  · intro t ht t' ht'
    have hr : Reaches s.basis t t' := (reaches_symm s hk pick hb h0 ((hC t).1 ht)).trans ((hC t').1 ht')
    induction hr with
    | refl => exact Relation.ReflTransGen.refl
    | @tail u v hu hv ih =>
      have huC : u ∈ C := (hC u).2 (((hC t).1 ht).trans hu)
      refine (ih huC).tail ⟨huC, ht', ?_⟩
      obtain ⟨mv, hmv, e, _, rfl, _⟩ := hv
      exact ⟨mv, hmv, e, rfl⟩

end Chain

/-! ## Property theorems -/

/-- C151: the tables the chain can reach are finitely many. -/
theorem C151_reachable_finite {m n : Nat} (s : Sampler m n) (hk : BothMargins s.constrained) (pick : Cell m n → Nat)
    (hb : generateBasis s.constrained s.fixed pick = some s.basis) (t0 : Table m n) (h0 : Nonneg t0) (hf : AgreeAt s.fixed t0 s.truth) :
    ∃ C : Finset (Table m n), ∀ t, t ∈ C ↔ Reaches s.basis t0 t := by
  classical
  obtain ⟨F, hF⟩ := C94_fibre_finite (rowSum t0) (colSum t0) s.fixed s.truth
  refine ⟨F.filter fun t => Reaches s.basis t0 t, fun t => ?_⟩
  rw [Finset.mem_filter]
  refine ⟨fun h => h.2, fun h => ⟨?_, h⟩⟩
  rw [← Finset.mem_coe, hF]
  exact reaches_fibre s hk pick hb ⟨h0, fun _ => rfl, fun _ => rfl, hf⟩ h

/-- C151 (what holds): from every non-negative table, the law of the table after `k` degree-higher steps converges (geometrically) to the target law
conditioned on the tables that the generated basis connects with the start.  Missing: the generated basis need not connect all tables with the
margins of the start (`C151_false`). -/
theorem C151_converges_partial {m n : Nat} (s : Sampler m n) (hk : BothMargins s.constrained) (pick : Cell m n → Nat)
    (hb : generateBasis s.constrained s.fixed pick = some s.basis) (hne : s.basis ≠ []) (w : Fin m → Fin n → ℝ) (hw : OddsInRange w)
    (t0 : Table m n) (h0 : Nonneg t0) (C : Finset (Table m n)) (hC : ∀ t, t ∈ C ↔ Reaches s.basis t0 t) (f : Table m n → ℝ) :
    Tendsto (fun k => chainMean s w k f t0) atTop (𝓝 (condMean w C f)) ∧
    ∃ (N : ℕ) (ρ D : ℝ), 0 < N ∧ 0 ≤ ρ ∧ ρ < 1 ∧ ∀ t ∈ C, ∀ k, |chainMean s w k f t - condMean w C f| ≤ D * ρ ^ (k / N) := by
  have h := chain_averaging s hk pick hb hne w hw h0 C hC
  have ht0 : t0 ∈ C := (hC t0).2 Relation.ReflTransGen.refl
  simp only [chainMean_eq]
  exact ⟨h.tendsto f ht0, h.geometric f⟩

/-- C151: if the generated basis connects the start with all tables with its margins and fixed cells, the limit is the target law on the
fibre. -/
theorem C151_connected_partial {m n : Nat} (s : Sampler m n) (hk : BothMargins s.constrained) (pick : Cell m n → Nat)
    (hb : generateBasis s.constrained s.fixed pick = some s.basis) (hne : s.basis ≠ []) (w : Fin m → Fin n → ℝ) (hw : OddsInRange w)
    (row : Fin m → Int) (col : Fin n → Int) (F : Finset (Table m n)) (hF : ↑F = Fibre row col s.fixed s.truth) (t0 : Table m n) (ht0 : t0 ∈ F)
    (hconn : ∀ t ∈ F, Reaches s.basis t0 t) (f : Table m n → ℝ) :
    Tendsto (fun k => chainMean s w k f t0) atTop (𝓝 (condMean w F f)) := by
  have hm : t0 ∈ Fibre row col s.fixed s.truth := by rw [← hF]; exact ht0
  obtain ⟨p0, p1, p2, p3⟩ := hm
  obtain rfl : row = rowSum t0 := funext fun i => (p1 i).symm
  obtain rfl : col = colSum t0 := funext fun j => (p2 j).symm
  refine (C151_converges_partial s hk pick hb hne w hw t0 p0 F ?_ f).1
  intro t
  refine ⟨hconn t, fun h => ?_⟩
  rw [← Finset.mem_coe, hF]
  exact reaches_fibre s hk pick hb ⟨p0, p1, p2, p3⟩ h

/-- C151: the average over the first `K` samples converges as well. -/
theorem C151_sample_mean {m n : Nat} (s : Sampler m n) (hk : BothMargins s.constrained) (pick : Cell m n → Nat)
    (hb : generateBasis s.constrained s.fixed pick = some s.basis) (hne : s.basis ≠ []) (w : Fin m → Fin n → ℝ) (hw : OddsInRange w)
    (t0 : Table m n) (h0 : Nonneg t0) (C : Finset (Table m n)) (hC : ∀ t, t ∈ C ↔ Reaches s.basis t0 t) (f : Table m n → ℝ) :
    Tendsto (fun K : ℕ => (K : ℝ)⁻¹ * ∑ k ∈ Finset.range K, chainMean s w k f t0) atTop (𝓝 (condMean w C f)) :=
  (C151_converges_partial s hk pick hb hne w hw t0 h0 C hC f).1.cesaro

/-- C151 for 2×2 tables without fixed cells: whatever the generator draws, the chain converges to the target law on all tables with the margins. -/
theorem C151_two_by_two (s : Sampler 2 2) (hk : BothMargins s.constrained) (hfix : s.fixed = []) (pick : Cell 2 2 → Nat)
    (hpick : ValidPick (m := 2) (n := 2) s.constrained [] pick)
    (hb : generateBasis s.constrained s.fixed pick = some s.basis) (hne : s.basis ≠ []) (w : Fin 2 → Fin 2 → ℝ) (hw : OddsInRange w)
    (row : Fin 2 → Int) (col : Fin 2 → Int) (F : Finset (Table 2 2)) (hF : ↑F = Fibre row col s.fixed s.truth) (t0 : Table 2 2) (ht0 : t0 ∈ F)
    (f : Table 2 2 → ℝ) : Tendsto (fun k => chainMean s w k f t0) atTop (𝓝 (condMean w F f)) := by
  refine C151_connected_partial s hk pick hb hne w hw row col F hF t0 ht0 ?_ f
  intro t ht
  rw [← Finset.mem_coe, hF] at ht ht0
  rw [hfix] at hb
  exact C05_connected_two_by_two_partial s.constrained hk pick hpick s.basis hb t0 t ht0.1 ht.1
    (fun i => (ht0.2.1 i).trans (ht.2.1 i).symm) (fun j => (ht0.2.2.1 j).trans (ht.2.2.1 j).symm)

/-- C151 in full: started in any table of a fibre, the chain with any generated (non-empty) basis converges to the target law on the fibre. -/
def Spec.ChainConverges : Prop := ∀ (m n : Nat) (s : Sampler m n), BothMargins s.constrained → ∀ pick : Cell m n → Nat,
  ValidPick s.constrained s.fixed pick → generateBasis s.constrained s.fixed pick = some s.basis → s.basis ≠ [] →
  ∀ w : Fin m → Fin n → ℝ, OddsInRange w → ∀ (row : Fin m → Int) (col : Fin n → Int) (F : Finset (Table m n)),
  ↑F = Fibre row col s.fixed s.truth → ∀ t0 ∈ F, ∀ f : Table m n → ℝ, Tendsto (fun k => chainMean s w k f t0) atTop (𝓝 (condMean w F f))

/-- The sampler of the counter-example to C05. -/
noncomputable def badSampler : Sampler 2 3 where
  truth := ![![1, 0, 0], ![0, 1, 0]]
  margins := updateMarginsFromTable (![![1, 0, 0], ![0, 1, 0]] : Table 2 3) (fun _ => none)
  constrained := [[0], [0, 1], [1]]
  fixed := []
  basis := [[((0, 0), 1), ((1, 2), 1), ((0, 2), -1), ((1, 0), -1)], [((0, 1), 1), ((1, 2), 1), ((0, 2), -1), ((1, 1), -1)]]
  logI := none

theorem badSampler_basis : BothMargins badSampler.constrained ∧ ValidPick badSampler.constrained badSampler.fixed badPick ∧
    generateBasis badSampler.constrained badSampler.fixed badPick = some badSampler.basis ∧ badSampler.basis ≠ [] := by
  refine ⟨⟨rfl, fun a => ?_⟩, badPick_valid, by decide +kernel, by simp [badSampler]⟩
  simp only [badSampler, List.mem_cons, List.not_mem_nil, or_false]; tauto

theorem badSampler_stuck : ¬ Reaches badSampler.basis badSampler.truth ![![0, 1, 0], ![1, 0, 0]] := by
  intro h
  rcases Relation.ReflTransGen.cases_head h with h | ⟨t, ht, _⟩
  · have := congrFun (congrFun h 0) 0
    exact absurd this (by decide)
  · obtain ⟨mv, hmv, e, he, rfl, hn⟩ := ht
    simp only [badSampler, List.mem_cons, List.not_mem_nil, or_false] at hmv
    rcases hmv with rfl | rfl <;> rcases he with rfl | rfl <;> revert hn <;> unfold Nonneg <;> decide +kernel

/-- C151 in full is false of the code: with a possible 2×3 basis a table with the same margins is never visited. -/
theorem C151_false : ¬ Spec.ChainConverges := by
  classical
  intro h
  obtain ⟨hk, hp, hb, hne⟩ := badSampler_basis
  have hw : OddsInRange (m := 2) (n := 3) fun _ _ => 0 := by
    intro i₁ i₂ j₁ j₂ _ _
    norm_num
  have hA : Nonneg badSampler.truth := by unfold Nonneg; decide +kernel
  obtain ⟨F, hF⟩ := C94_fibre_finite (rowSum badSampler.truth) (colSum badSampler.truth) badSampler.fixed badSampler.truth
  obtain ⟨C, hC⟩ := C151_reachable_finite badSampler hk _ hb badSampler.truth hA (fun _ _ _ => rfl)
  set f : Table 2 3 → ℝ := fun t => if t = ![![0, 1, 0], ![1, 0, 0]] then 1 else 0 with hf
  have hBF : (![![0, 1, 0], ![1, 0, 0]] : Table 2 3) ∈ F := by
    rw [← Finset.mem_coe, hF]
    exact ⟨by unfold Nonneg; decide +kernel, by unfold rowSum; decide +kernel, by unfold colSum; decide +kernel, fun i j h => by simp [badSampler] at h⟩
  have hAF : badSampler.truth ∈ F := by
    rw [← Finset.mem_coe, hF]
    exact ⟨hA, fun _ => rfl, fun _ => rfl, fun _ _ _ => rfl⟩
  have l1 := h 2 3 badSampler hk _ hp hb hne _ hw _ _ F hF _ hAF f
  have l2 := (C151_converges_partial badSampler hk _ hb hne _ hw _ hA C hC f).1
  have e := tendsto_nhds_unique l1 l2
  have z : condMean (fun _ _ => 0) C f = 0 := by
    unfold condMean
    rw [Finset.sum_eq_zero, zero_div]
    intro t ht
    have : t ≠ ![![0, 1, 0], ![1, 0, 0]] := by
      rintro rfl
      exact badSampler_stuck ((hC _).1 ht)
    simp only [hf, if_neg this, mul_zero]
  have q : 0 < condMean (fun _ _ => 0) F f := by
    unfold condMean
    refine div_pos ?_ (Finset.sum_pos (fun t _ => target_pos _ t) ⟨_, hAF⟩)
    refine Finset.sum_pos' (fun t _ => mul_nonneg (target_pos _ t).le ?_) ⟨_, hBF, ?_⟩
    · simp only [hf]; split_ifs <;> norm_num
    · simp only [hf, if_true, mul_one]; exact target_pos _ _
  rw [e, z] at q
  exact lt_irrefl _ q

/-- Non-vacuity: the 2×2 sampler of C94 with the uniform intensities visits both tables with margins 1 equally often in the long run. -/
example : Tendsto (fun k => chainMean smallSampler (fun _ _ => 0) k (fun t => t 0 0) tabI) atTop (𝓝 (1 / 2)) := by
  have h := C151_two_by_two smallSampler smallSampler_basis.1 rfl (fun _ => 0) ?_ smallSampler_basis.2 (by simp [smallSampler]) (fun _ _ => 0)
    (by intro i₁ i₂ j₁ j₂ _ _; norm_num) (fun _ => 1) (fun _ => 1) {tabI, tabS} small_fibre tabI (by simp) (fun t => t 0 0)
  · have hne : tabI ≠ tabS := by decide +kernel
    have hT1 : target (fun _ _ => 0) tabI = 1 := by unfold target tabI; simp [Fin.prod_univ_two]
    have hT2 : target (fun _ _ => 0) tabS = 1 := by unfold target tabS; simp [Fin.prod_univ_two]
    have : condMean (fun _ _ => 0) {tabI, tabS} (fun t => (t 0 0 : ℝ)) = 1 / 2 := by
      unfold condMean
      rw [Finset.sum_pair hne, Finset.sum_pair hne, hT1, hT2]
      simp [tabI, tabS]
      norm_num
    rwa [this] at h
  · intro pre c rest cands _ _ hne
    exact List.length_pos_iff.2 hne

end GeNSIT
