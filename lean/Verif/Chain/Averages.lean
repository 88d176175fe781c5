import Verif.Chain.Ergodic

/-!
# C198: averages over the sampled tables

The running mean of a quantity of the table over the iterations of the table chain (`ContingencyTable_MCMC.py:612-669`, `:754-775`, called once per
iteration from `Table_MCMC.run` and `JointTableSIM_MCMC.run`; the mean over `iter` is taken by `gensit summarise`).
-/

set_option linter.unusedSimpArgs false
set_option linter.unusedVariables false
set_option linter.unusedSectionVars false

namespace GeNSIT

open Spec Filter Topology

/-! ## The second moment of a total along a chain -/

section Abstract

variable {α : Type*} {C : Finset α} {P : (α → ℝ) → α → ℝ} {p : α → ℝ} {E : α → α → Prop}

/-- The mean of `g (a + f X₁ + ⋯ + f X_K)` along the chain from `x`. -/
noncomputable def pathTotal (P : (α → ℝ) → α → ℝ) (f : α → ℝ) : ℕ → (ℝ → ℝ) → α → ℝ → ℝ
  | 0, g, _, a => g a
  | k + 1, g, x, a => P (fun y => pathTotal P f k g y (a + f y)) x

theorem Averaging.congr (h : Averaging C P p E) {f g : α → ℝ} (hfg : ∀ y ∈ C, f y = g y) {x : α} (hx : x ∈ C) : P f x = P g x :=
  le_antisymm (h.mono f g (fun y hy => (hfg y hy).le) x hx) (h.mono g f (fun y hy => (hfg y hy).ge) x hx)

theorem Averaging.path_mono (h : Averaging C P p E) (f : α → ℝ) {g g' : ℝ → ℝ} (hg : ∀ a, g a ≤ g' a) (K : ℕ) :
    ∀ x ∈ C, ∀ a, pathTotal P f K g x a ≤ pathTotal P f K g' x a := by
  induction K with
  | zero => intro x _ a; exact hg a
  | succ K ih => intro x hx a; exact h.mono _ _ (fun y hy => ih y hy _) x hx

theorem Averaging.path_affine (h : Averaging C P p E) (f : α → ℝ) (g : ℝ → ℝ) (c r : ℝ) (K : ℕ) :
    ∀ x ∈ C, ∀ a, pathTotal P f K (fun b => c + r * g b) x a = c + r * pathTotal P f K g x a := by
  induction K with
  | zero => intro x _ a; rfl
  | succ K ih =>
    intro x hx a
    simp only [pathTotal]
    rw [h.congr (fun y hy => ih y hy (a + f y)) hx, h.affine _ c r x hx]

/-- The mean of the centred total. -/
noncomputable def centredTotal (P : (α → ℝ) → α → ℝ) (f : α → ℝ) (μ : ℝ) : ℕ → α → ℝ
  | 0, _ => 0
  | K + 1, x => P (fun y => (f y - μ) + centredTotal P f μ K y) x

/-- The second moment of the centred total. -/
noncomputable def centredSquare (P : (α → ℝ) → α → ℝ) (f : α → ℝ) (μ : ℝ) : ℕ → α → ℝ
  | 0, _ => 0
  | K + 1, x => P (fun y => (f y - μ) ^ 2 + 2 * (f y - μ) * centredTotal P f μ K y + centredSquare P f μ K y) x

/-- An averaging operator that is additive. -/
def Additive' (C : Finset α) (P : (α → ℝ) → α → ℝ) : Prop := ∀ f g : α → ℝ, ∀ x ∈ C, P (fun y => f y + g y) x = P f x + P g x

theorem Averaging.path_square (h : Averaging C P p E) (hadd : Additive' C P) (f : α → ℝ) (μ : ℝ) (K : ℕ) :
    ∀ (c : ℝ), ∀ x ∈ C, ∀ a, pathTotal P f K (fun b => (b - K * μ + c) ^ 2) x a =
      (a + c) ^ 2 + 2 * (a + c) * centredTotal P f μ K x + centredSquare P f μ K x := by
  induction K with
  | zero => intro c x _ a; simp [pathTotal, centredTotal, centredSquare]
  | succ K ih =>
    intro c x hx a
    have e : (fun b : ℝ => (b - ((K + 1 : ℕ) : ℝ) * μ + c) ^ 2) = fun b => (b - K * μ + (c - μ)) ^ 2 := by
      funext b; push_cast; ring
    simp only [pathTotal, e]
    rw [h.congr (g := fun y => ((a + c) ^ 2 + 2 * (a + c) * ((f y - μ) + centredTotal P f μ K y)) +
      ((f y - μ) ^ 2 + 2 * (f y - μ) * centredTotal P f μ K y + centredSquare P f μ K y)) (fun y hy => by rw [ih (c - μ) y hy (a + f y)]; ring) hx,
      hadd _ _ x hx, h.affine _ _ _ x hx]
    rfl

theorem Averaging.sum_eq (h : Averaging C P p E) (hadd : Additive' C P) (u : ℕ → α → ℝ) (μ : ℝ) (K : ℕ) :
    ∀ x ∈ C, P (fun y => ∑ k ∈ Finset.range K, (u k y - μ)) x = ∑ k ∈ Finset.range K, (P (u k) x - μ) := by
  induction K with
  | zero => intro x hx; simpa using h.const 0 x hx
  | succ K ih =>
    intro x hx
    have e : (fun y => ∑ k ∈ Finset.range (K + 1), (u k y - μ)) = fun y => (∑ k ∈ Finset.range K, (u k y - μ)) + (-μ + 1 * u K y) := by
      funext y; rw [Finset.sum_range_succ]; ring
    rw [e, hadd _ _ x hx, ih x hx, h.affine _ _ _ x hx, Finset.sum_range_succ]
    ring

theorem Averaging.centredTotal_eq (h : Averaging C P p E) (hadd : Additive' C P) (f : α → ℝ) (μ : ℝ) (K : ℕ) :
    ∀ x ∈ C, centredTotal P f μ K x = ∑ k ∈ Finset.range K, (P^[k + 1] f x - μ) := by
  induction K with
  | zero => intro x _; simp [centredTotal]
  | succ K ih =>
    intro x hx
    simp only [centredTotal]
    rw [h.congr (g := fun y => ∑ k ∈ Finset.range (K + 1), (P^[k] f y - μ)) (fun y hy => by
      rw [ih y hy, Finset.sum_range_succ', add_comm]; rfl) hx, h.sum_eq hadd _ _ _ x hx]
    exact Finset.sum_congr rfl fun k _ => by rw [Function.iterate_succ_apply']

theorem blocks_le {ρ : ℝ} (h0 : 0 ≤ ρ) (h1 : ρ < 1) {N : ℕ} (hN : 0 < N) (K : ℕ) :
    ∑ k ∈ Finset.range K, ρ ^ ((k + 1) / N) ≤ N / (1 - ρ) := by
  have hm : ∀ m : ℕ, (∑ k ∈ Finset.range (N * m), ρ ^ (k / N)) * (1 - ρ) = N * (1 - ρ ^ m) := by
    intro m
    induction m with
    | zero => simp
    | succ m ih =>
      rw [Nat.mul_succ, Finset.sum_range_add, add_mul, ih]
      have : ∀ i ∈ Finset.range N, ρ ^ ((N * m + i) / N) = ρ ^ m := by
        intro i hi
        rw [Nat.mul_add_div hN, Nat.div_eq_of_lt (Finset.mem_range.1 hi), add_zero]
      rw [Finset.sum_congr rfl this, Finset.sum_const, Finset.card_range, nsmul_eq_mul, pow_succ]
      ring
  have h2 : ∑ k ∈ Finset.range K, ρ ^ ((k + 1) / N) ≤ ∑ k ∈ Finset.range (N * K), ρ ^ (k / N) := by
    refine (Finset.sum_le_sum fun k _ => pow_le_pow_of_le_one h0 h1.le (Nat.div_le_div_right (Nat.le_succ k))).trans ?_
    refine Finset.sum_le_sum_of_subset_of_nonneg (fun k hk => ?_) (fun _ _ _ => by positivity)
    rw [Finset.mem_range] at hk ⊢
    exact lt_of_lt_of_le hk (Nat.le_mul_of_pos_left K hN)
  refine h2.trans ?_
  rw [le_div_iff₀ (by linarith), hm]
  have : (0 : ℝ) ≤ N * ρ ^ K := by positivity
  nlinarith

/-- The mean square of the centred total grows at most linearly. -/
theorem Averaging.square_le (h : Averaging C P p E) (hadd : Additive' C P) (f : α → ℝ) : ∃ D : ℝ, 0 ≤ D ∧ ∀ x ∈ C, ∀ K : ℕ,
    pathTotal P f K (fun b => (b - K * ((∑ y ∈ C, p y * f y) / ∑ y ∈ C, p y)) ^ 2) x 0 ≤ D * K := by
  obtain ⟨N, ρ, D, hN, h0, h1, hb⟩ := h.geometric f
  set μ := (∑ y ∈ C, p y * f y) / ∑ y ∈ C, p y with hμ
  rcases C.eq_empty_or_nonempty with he | ⟨x0, hx0⟩
  · exact ⟨0, le_refl _, fun x hx => by simp [he] at hx⟩
  have hf : ∀ x ∈ C, |f x - μ| ≤ D := fun x hx => by simpa using hb x hx 0
  have hD : 0 ≤ D := (abs_nonneg _).trans (hf x0 hx0)
  have hA : ∀ K, ∀ x ∈ C, |centredTotal P f μ K x| ≤ D * (N / (1 - ρ)) := by
    intro K x hx
    rw [h.centredTotal_eq hadd f μ K x hx]
    refine (Finset.abs_sum_le_sum_abs _ _).trans ((Finset.sum_le_sum fun k _ => hb x hx (k + 1)).trans ?_)
    rw [← Finset.mul_sum]
    exact mul_le_mul_of_nonneg_left (blocks_le h0 h1 hN K) hD
  set B := D * (N / (1 - ρ)) with hB
  have hQ : ∀ K : ℕ, ∀ x ∈ C, centredSquare P f μ K x ≤ (D ^ 2 + 2 * D * B) * K := by
    intro K
    induction K with
    | zero => intro x _; simp [centredSquare]
    | succ K ih =>
      intro x hx
      simp only [centredSquare]
      rw [← h.const ((D ^ 2 + 2 * D * B) * ((K + 1 : ℕ) : ℝ)) x hx]
      refine h.mono _ _ (fun y hy => ?_) x hx
      have i1 := ih y hy
      have i2 : (f y - μ) ^ 2 ≤ D ^ 2 := sq_le_sq' (by have := abs_le.1 (hf y hy); linarith) (abs_le.1 (hf y hy)).2
      have i3 : (f y - μ) * centredTotal P f μ K y ≤ D * B :=
        (le_abs_self _).trans (by rw [abs_mul]; exact mul_le_mul (hf y hy) (hA K y hy) (abs_nonneg _) hD)
      push_cast
      nlinarith
  have hB0 : 0 ≤ B := (abs_nonneg _).trans (hA 0 x0 hx0)
  refine ⟨D ^ 2 + 2 * D * B, by positivity, fun x hx K => ?_⟩
  have e := h.path_square hadd f μ K 0 x hx 0
  simp only [add_zero] at e
  rw [e]
  have := hQ K x hx
  nlinarith

/-- The mean square error of the running mean. -/
theorem Averaging.mean_square (h : Averaging C P p E) (hadd : Additive' C P) (f : α → ℝ) : ∃ D : ℝ, 0 ≤ D ∧ ∀ x ∈ C, ∀ K : ℕ, 0 < K →
    pathTotal P f K (fun b => (b / K - (∑ y ∈ C, p y * f y) / ∑ y ∈ C, p y) ^ 2) x 0 ≤ D / K := by
  obtain ⟨D, hD, hs⟩ := h.square_le hadd f
  refine ⟨D, hD, fun x hx K hK => ?_⟩
  have hK' : (0 : ℝ) < K := by exact_mod_cast hK
  have e : (fun b : ℝ => (b / K - (∑ y ∈ C, p y * f y) / ∑ y ∈ C, p y) ^ 2) =
      fun b => 0 + 1 / (K : ℝ) ^ 2 * (b - K * ((∑ y ∈ C, p y * f y) / ∑ y ∈ C, p y)) ^ 2 := by
    funext b; field_simp; ring
  rw [e, h.path_affine f _ _ _ K x hx 0, zero_add]
  have := hs x hx K
  rw [div_mul_eq_mul_div, one_mul, div_le_div_iff₀ (by positivity) hK']
  nlinarith

/-- How often the running mean misses. -/
theorem Averaging.misses (h : Averaging C P p E) (f : α → ℝ) {μ D η : ℝ} (hη : 0 < η) {x : α} (hx : x ∈ C) {K : ℕ} (hK : 0 < K)
    (hms : pathTotal P f K (fun b => (b / K - μ) ^ 2) x 0 ≤ D / K) :
    pathTotal P f K (fun b => if η ≤ |b / K - μ| then 1 else 0) x 0 ≤ D / η ^ 2 / K := by
  have h1 := h.path_mono f (g := fun b => if η ≤ |b / K - μ| then 1 else 0) (g' := fun b => 0 + 1 / η ^ 2 * (b / K - μ) ^ 2) (fun b => by
    split_ifs with hc
    · rw [zero_add, div_mul_eq_mul_div, one_mul, le_div_iff₀ (by positivity), one_mul, ← sq_abs (b / K - μ)]
      exact pow_le_pow_left₀ hη.le hc 2
    · positivity) K x hx 0
  rw [h.path_affine f _ _ _ K x hx 0, zero_add] at h1
  refine h1.trans ((mul_le_mul_of_nonneg_left hms (by positivity)).trans (le_of_eq ?_))
  field_simp

end Abstract

/-! ## Specification -/

/-- The mean of `g (a + f T₁ + ⋯ + f T_K)`, where `T₁, …, T_K` are the tables of the next `K` iterations from table `t`: every iteration makes one
degree-higher step with fresh random numbers and adds `f` of its result.  A failed step would count as 0 (it never fails, C94). -/
noncomputable def Spec.sampledTotal {m n : Nat} (s : Sampler m n) (w : Fin m → Fin n → ℝ) (f : Table m n → ℝ) : ℕ → (ℝ → ℝ) → Table m n → ℝ → ℝ
  | 0, g, _, a => g a
  | k + 1, g, t, a => higherMean s w t fun o => match o with
    | some (t', _) => Spec.sampledTotal s w f k g t' (a + f t')
    | none => 0

/-- The mean square error of the running mean of `f` over the next `K` tables, as an estimate of `μ`. -/
noncomputable def Spec.meanSquareError {m n : Nat} (s : Sampler m n) (w : Fin m → Fin n → ℝ) (f : Table m n → ℝ) (μ : ℝ) (K : ℕ) (t : Table m n) : ℝ :=
  Spec.sampledTotal s w f K (fun a => (a / K - μ) ^ 2) t 0

/-- The probability that the running mean of `f` over the next `K` tables is off by `η` or more. -/
noncomputable def Spec.missProbability {m n : Nat} (s : Sampler m n) (w : Fin m → Fin n → ℝ) (f : Table m n → ℝ) (μ η : ℝ) (K : ℕ) (t : Table m n) : ℝ :=
  Spec.sampledTotal s w f K (fun a => if η ≤ |a / K - μ| then 1 else 0) t 0

/-- C198 in full: with any generated (non-empty) basis, the running mean of any quantity of the table is a consistent estimate of its mean under the
target law on the tables with the margins and fixed cells. -/
def Spec.AveragesConsistent : Prop := ∀ (m n : Nat) (s : Sampler m n), BothMargins s.constrained → ∀ pick : Cell m n → Nat,
  ValidPick s.constrained s.fixed pick → generateBasis s.constrained s.fixed pick = some s.basis → s.basis ≠ [] →
  ∀ w : Fin m → Fin n → ℝ, OddsInRange w → ∀ (row : Fin m → Int) (col : Fin n → Int) (F : Finset (Table m n)),
  ↑F = Fibre row col s.fixed s.truth → ∀ t0 ∈ F, ∀ (f : Table m n → ℝ) (η : ℝ), 0 < η →
    Tendsto (fun K => Spec.missProbability s w f (condMean w F f) η K t0) atTop (𝓝 0)

/-! ## Proof -/

theorem sampledTotal_eq {m n : Nat} (s : Sampler m n) (w : Fin m → Fin n → ℝ) (f : Table m n → ℝ) (K : ℕ) (g : ℝ → ℝ) :
    Spec.sampledTotal s w f K g = pathTotal (stepMean s w) f K g := by
  induction K with
  | zero => rfl
  | succ K ih =>
    funext t a
    simp only [Spec.sampledTotal, pathTotal, ih]
    rfl

section

variable {m n : Nat} (s : Sampler m n) (hk : BothMargins s.constrained) (pick : Cell m n → Nat)
  (hb : generateBasis s.constrained s.fixed pick = some s.basis) (hne : s.basis ≠ []) (w : Fin m → Fin n → ℝ)

include hk hb hne in
theorem stepMean_add (f g : Table m n → ℝ) (t : Table m n) : stepMean s w (fun y => f y + g y) t = stepMean s w f t + stepMean s w g t := by
  obtain ⟨A, B, -, hstep⟩ := stepMean_eq s hk pick hb hne w
  rw [hstep, hstep, hstep, ← add_div, ← Finset.sum_add_distrib]
  congr 1
  refine Finset.sum_congr rfl fun i _ => ?_
  rw [← Finset.sum_add_distrib]
  exact Finset.sum_congr rfl fun v _ => by ring

/-! ## Property theorems -/

variable (hw : OddsInRange w) (t0 : Table m n) (h0 : Nonneg t0) (C : Finset (Table m n)) (hC : ∀ t, t ∈ C ↔ Reaches s.basis t0 t) (f : Table m n → ℝ)

include hk hb hne hw h0 hC in
/-- **C198** (what holds): the mean square error of the running mean over `K` sampled tables is at most `D / K`, from every table the chain can be in.
Missing: the mean is over the tables that the generated basis connects with the start (`C198_false`). -/
theorem C198_mean_square_partial : ∃ D : ℝ, 0 ≤ D ∧ ∀ t ∈ C, ∀ K : ℕ, 0 < K → Spec.meanSquareError s w f (condMean w C f) K t ≤ D / K := by
  obtain ⟨D, hD, h⟩ := (chain_averaging s hk pick hb hne w hw h0 C hC).mean_square (fun f g t _ => stepMean_add s hk pick hb hne w f g t) f
  refine ⟨D, hD, fun t ht K hK => ?_⟩
  unfold Spec.meanSquareError
  rw [sampledTotal_eq]
  exact h t ht K hK

include hk hb hne hw h0 hC in
/-- **C198**: the same bound holds, with the same constant, after any burn-in `b`. -/
theorem C198_burnin_partial : ∃ D : ℝ, 0 ≤ D ∧ ∀ b K : ℕ, 0 < K → chainMean s w b (fun t => Spec.meanSquareError s w f (condMean w C f) K t) t0 ≤ D / K := by
  obtain ⟨D, hD, h⟩ := C198_mean_square_partial s hk pick hb hne w hw t0 h0 C hC f
  have ha := chain_averaging s hk pick hb hne w hw h0 C hC
  refine ⟨D, hD, fun b K hK => ?_⟩
  rw [chainMean_eq]
  have : ∀ b : ℕ, ∀ t ∈ C, (stepMean s w)^[b] (fun t => Spec.meanSquareError s w f (condMean w C f) K t) t ≤ D / K := by
    intro b
    induction b with
    | zero => intro t ht; exact h t ht K hK
    | succ b ih =>
      intro t ht
      rw [Function.iterate_succ_apply', ← ha.const (D / K) t ht]
      exact ha.mono _ _ ih t ht
  exact this b t0 ((hC t0).2 Relation.ReflTransGen.refl)

include hk hb hne hw h0 hC in
/-- **C198**: the probability that the running mean is off by `η` is at most `D / (η² K)`. -/
theorem C198_misses_partial : ∃ D : ℝ, 0 ≤ D ∧ ∀ η : ℝ, 0 < η → ∀ t ∈ C, ∀ K : ℕ, 0 < K → Spec.missProbability s w f (condMean w C f) η K t ≤ D / η ^ 2 / K := by
  obtain ⟨D, hD, h⟩ := C198_mean_square_partial s hk pick hb hne w hw t0 h0 C hC f
  refine ⟨D, hD, fun η hη t ht K hK => ?_⟩
  have := h t ht K hK
  unfold Spec.meanSquareError at this
  unfold Spec.missProbability
  rw [sampledTotal_eq] at this ⊢
  exact (chain_averaging s hk pick hb hne w hw h0 C hC).misses f hη ht hK this

include hk hb hne hw h0 hC in
/-- **C198**: the running mean is a consistent estimate. -/
theorem C198_consistent_partial {η : ℝ} (hη : 0 < η) : Tendsto (fun K => Spec.missProbability s w f (condMean w C f) η K t0) atTop (𝓝 0) := by
  obtain ⟨D, hD, h⟩ := C198_misses_partial s hk pick hb hne w hw t0 h0 C hC f
  have ht0 := (hC t0).2 Relation.ReflTransGen.refl
  have ha := chain_averaging s hk pick hb hne w hw h0 C hC
  refine squeeze_zero' (Eventually.of_forall fun K => ?_) ((eventually_gt_atTop 0).mono fun K hK => h η hη t0 ht0 K hK)
    (tendsto_const_div_atTop_nhds_zero_nat (D / η ^ 2))
  unfold Spec.missProbability
  rw [sampledTotal_eq]
  have h1 := ha.path_affine f (fun _ => 0) 0 0 K t0 ht0 0
  have h2 := ha.path_mono f (g := fun b => 0 + 0 * (fun _ : ℝ => (0 : ℝ)) b) (g' := fun b => if η ≤ |b / K - condMean w C f| then 1 else 0)
    (fun b => by simp only [zero_mul, add_zero]; split_ifs <;> norm_num) K t0 ht0 0
  rw [h1] at h2
  simpa using h2

end

/-- **C198** for 2×2 tables without fixed cells: whatever the generator draws, running means are consistent estimates of means under the target law on
all tables with the margins. -/
theorem C198_two_by_two (s : Sampler 2 2) (hk : BothMargins s.constrained) (hfix : s.fixed = []) (pick : Cell 2 2 → Nat)
    (hpick : ValidPick (m := 2) (n := 2) s.constrained [] pick)
    (hb : generateBasis s.constrained s.fixed pick = some s.basis) (hne : s.basis ≠ []) (w : Fin 2 → Fin 2 → ℝ) (hw : OddsInRange w)
    (row : Fin 2 → Int) (col : Fin 2 → Int) (F : Finset (Table 2 2)) (hF : ↑F = Fibre row col s.fixed s.truth) (t0 : Table 2 2) (ht0 : t0 ∈ F)
    (f : Table 2 2 → ℝ) {η : ℝ} (hη : 0 < η) : Tendsto (fun K => Spec.missProbability s w f (condMean w F f) η K t0) atTop (𝓝 0) := by
  rw [← Finset.mem_coe, hF] at ht0
  obtain ⟨p0, p1, p2, p3⟩ := ht0
  obtain rfl : row = rowSum t0 := funext fun i => (p1 i).symm
  obtain rfl : col = colSum t0 := funext fun j => (p2 j).symm
  refine C198_consistent_partial s hk pick hb hne w hw t0 p0 F (fun t => ⟨fun ht => ?_, fun h => ?_⟩) f hη
  · rw [← Finset.mem_coe, hF] at ht
    have hb' := hb
    rw [hfix] at hb'
    exact C05_connected_two_by_two_partial s.constrained hk pick hpick s.basis hb' t0 t p0 ht.1 (fun i => (ht.2.1 i).symm) (fun j => (ht.2.2.1 j).symm)
  · rw [← Finset.mem_coe, hF]
    exact reaches_fibre s hk pick hb ⟨p0, p1, p2, p3⟩ h

/-- **C198** in full is false of the code: with a possible 2×3 basis the running frequency of a table with the same margins is always zero. -/
theorem C198_false : ¬ Spec.AveragesConsistent := by
  classical
  intro h
  obtain ⟨hk, hp, hb, hne⟩ := badSampler_basis
  have hw : OddsInRange (m := 2) (n := 3) fun _ _ => 0 := by
    intro i₁ i₂ j₁ j₂ _ _
    norm_num
  have hA : Nonneg badSampler.truth := by unfold Nonneg; decide +kernel
  obtain ⟨F, hF⟩ := C94_fibre_finite (rowSum badSampler.truth) (colSum badSampler.truth) badSampler.fixed badSampler.truth
  obtain ⟨C, hC⟩ := C151_reachable_finite badSampler hk _ hb badSampler.truth hA (fun _ _ _ => rfl)
  set f : Table 2 3 → ℝ := fun t => if t = ![![0, 1, 0], ![1, 0, 0]] then 1 else 0 with hf
  have hBF : (![![0, 1, 0], ![1, 0, 0]] : Table 2 3) ∈ F := by
    rw [← Finset.mem_coe, hF]
    exact ⟨by unfold Nonneg; decide +kernel, by unfold rowSum; decide +kernel, by unfold colSum; decide +kernel, fun i j h => by simp [badSampler] at h⟩
  have hAF : badSampler.truth ∈ F := by
    rw [← Finset.mem_coe, hF]
    exact ⟨hA, fun _ => rfl, fun _ => rfl, fun _ _ _ => rfl⟩
  have z : condMean (fun _ _ => 0) C f = 0 := by
    unfold condMean
    rw [Finset.sum_eq_zero, zero_div]
    intro t ht
    have : t ≠ ![![0, 1, 0], ![1, 0, 0]] := by
      rintro rfl
      exact badSampler_stuck ((hC _).1 ht)
    simp only [hf, if_neg this, mul_zero]
  have q : 0 < condMean (fun _ _ => 0) F f := by
    unfold condMean
    refine div_pos ?_ (Finset.sum_pos (fun t _ => target_pos _ t) ⟨_, hAF⟩)
    refine Finset.sum_pos' (fun t _ => mul_nonneg (target_pos _ t).le ?_) ⟨_, hBF, ?_⟩
    · simp only [hf]; split_ifs <;> norm_num
    · simp only [hf, if_true, mul_one]; exact target_pos _ _
  set μ := condMean (fun _ _ => 0) F f with hμ
  have hη : 0 < μ / 2 := by linarith
  have l1 := h 2 3 badSampler hk _ hp hb hne _ hw _ _ F hF _ hAF f (μ / 2) hη
  have l2 := C198_consistent_partial badSampler hk _ hb hne _ hw _ hA C hC f hη
  rw [z] at l2
  have ha := chain_averaging badSampler hk _ hb hne _ hw hA C hC
  have hmem : badSampler.truth ∈ C := (hC _).2 Relation.ReflTransGen.refl
  have hsum : ∀ K : ℕ, 1 + -1 * Spec.missProbability badSampler (fun _ _ => 0) f 0 (μ / 2) K badSampler.truth ≤
      Spec.missProbability badSampler (fun _ _ => 0) f μ (μ / 2) K badSampler.truth := by
    intro K
    unfold Spec.missProbability
    rw [sampledTotal_eq, sampledTotal_eq, ← ha.path_affine f _ 1 (-1) K _ hmem 0]
    refine ha.path_mono f (fun b => ?_) K _ hmem 0
    by_cases hc : μ / 2 ≤ |b / K - 0|
    · rw [if_pos hc]; split_ifs <;> norm_num
    · rw [if_neg hc, if_pos]
      · norm_num
      · push Not at hc
        rw [sub_zero] at hc
        have := abs_lt.1 hc
        rw [abs_sub_comm]
        exact le_trans (by linarith [this.2]) (le_abs_self _)
  have l3 := ge_of_tendsto' (l1.sub (l2.const_mul (-1) |>.const_add 1)) (b := 0) fun K => sub_nonneg.2 (hsum K)
  norm_num at l3

/-- Non-vacuity: over the two 2×2 tables with margins 1 the running mean of the first cell is a consistent estimate of 1/2. -/
example {η : ℝ} (hη : 0 < η) :
    Tendsto (fun K => Spec.missProbability smallSampler (fun _ _ => 0) (fun t => t 0 0) (1 / 2) η K tabI) atTop (𝓝 0) := by
  have h := C198_two_by_two smallSampler smallSampler_basis.1 rfl (fun _ => 0) ?_ smallSampler_basis.2 (by simp [smallSampler]) (fun _ _ => 0)
    (by intro i₁ i₂ j₁ j₂ _ _; norm_num) (fun _ => 1) (fun _ => 1) {tabI, tabS} small_fibre tabI (by simp) (fun t => t 0 0) hη
  · have hne : tabI ≠ tabS := by decide +kernel
    have hT1 : target (fun _ _ => 0) tabI = 1 := by unfold target tabI; simp [Fin.prod_univ_two]
    have hT2 : target (fun _ _ => 0) tabS = 1 := by unfold target tabS; simp [Fin.prod_univ_two]
    have : condMean (fun _ _ => 0) {tabI, tabS} (fun t => (t 0 0 : ℝ)) = 1 / 2 := by
      unfold condMean
      rw [Finset.sum_pair hne, Finset.sum_pair hne, hT1, hT2]
      simp [tabI, tabS]
      norm_num
    rwa [this] at h
  · intro pre c rest cands _ _ hne
    exact List.length_pos_iff.2 hne

end GeNSIT
