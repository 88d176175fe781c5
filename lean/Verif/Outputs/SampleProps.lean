import Verif.Outputs.Sample

/-!
# C128: what is read back is what was computed
-/

set_option linter.unusedVariables false
set_option linter.unusedSimpArgs false

namespace GeNSIT

open Finset

/-- The gravity model promised for one draw. -/
noncomputable def Spec.gravity (production : Bool) (I J : ℕ) (total : ℝ) (demand : ℕ → ℝ) (cost : ℕ → ℕ → ℝ) (alpha beta : ℝ) (x : ℕ → ℝ)
    (i j : ℕ) : ℝ :=
  if production then total * (demand i * Spec.choice J alpha beta x cost i j) else total * Spec.share I J alpha beta x cost i j

theorem simIntensity_eq (production : Bool) (I J : ℕ) (total : ℝ) (demand : ℕ → ℝ) (cost : Arr2) (alpha beta : ℕ → ℝ) (x : Arr2)
    (t i j : ℕ) (hi : i < I) (hj : j < J) (hd : ∀ i, 0 ≤ demand i) (hG : 0 ≤ total) :
    simIntensity production I J total demand cost alpha beta x t i j =
      Spec.gravity production I J total demand cost (alpha t) (beta t) (x t) i j := by
  have hJ : 0 < J := by omega
  have hx : ∀ k < J, attractionOf (simArgs I J total demand cost alpha beta x) t 0 k = x t k := by
    intro k hk
    simp only [attractionOf, simArgs]
    rw [Nat.mul_one, Nat.add_zero, Nat.add_comm, Nat.add_mul_mod_self_right, Nat.mod_eq_of_lt hk, Nat.add_mul_div_right _ _ hJ,
      Nat.div_eq_of_lt hk, Nat.zero_add]
  have hw : ∀ h k, k < J → Spec.weight (alpha t) (beta t) (attractionOf (simArgs I J total demand cost alpha beta x) t 0) cost h k =
      Spec.weight (alpha t) (beta t) (x t) cost h k := by
    intro h k hk
    simp only [Spec.weight, hx k hk]
  unfold simIntensity Spec.gravity
  cases production with
  | true =>
    simp only [if_true]
    rw [C67_production_partial (simArgs I J total demand cost alpha beta x) t 0 i j hi hj (by simp [simArgs]) (Or.inl rfl) (hd i) hG]
    simp only [simArgs, Nat.mul_one, Nat.add_zero]
    unfold Spec.choice
    rw [show (fun k => x (k / J) (k % J)) = (simArgs I J total demand cost alpha beta x).logAttraction from rfl]
    have := hw i
    simp only [simArgs] at this ⊢
    rw [this j hj, sum_congr rfl fun k hk => this k (mem_range.1 hk)]
  | false =>
    simp only [Bool.false_eq_true, if_false]
    rw [C67_totally_batch (simArgs I J total demand cost alpha beta x) t 0 i j (by simp [simArgs]; omega) hJ hG]
    simp only [simArgs, Nat.mul_one, Nat.add_zero]
    unfold Spec.share
    have := hw
    simp only [simArgs] at this ⊢
    rw [this i j hj, sum_congr rfl fun h _ => sum_congr rfl fun k hk => this h k (mem_range.1 hk)]

/-! ## Which sample is read -/

/-- C128: inputs are read from the inputs; validation data from the inputs or else from the named file, or are reported missing; everything
else from the stored outputs, provided there is exactly one collection of it; a missing one is reported as missing, several are refused. -/
theorem C128_sources (c : SampleCtx) (name : String) (h : ¬ (name = "intensity" ∧ c.sim = true)) :
    (name ∈ trainNames → ∀ v, c.getSample name = .ok (.array v) ↔ c.inputs name = some v) ∧
    (name ∈ validationNames → (∀ v, c.getSample name = .ok (.array v) ↔ c.inputs name = some v ∨ c.inputs name = none ∧ c.files name = some v) ∧
      (c.getSample name = .error .missingData ↔ c.inputs name = none ∧ c.files name = none)) ∧
    (name ∉ trainNames → name ∉ validationNames →
      (c.getSample name = .error .missingData ↔ c.outputs name = none) ∧
      (c.getSample name = .error .irregular ↔ ∃ m, c.outputs name = some m ∧ 1 < m.length) ∧
      (name ≠ "beta" ∨ c.sim = false → ∀ v, c.getSample name = .ok (.array v) ↔ c.outputs name = some [v])) := by
  unfold SampleCtx.getSample
  rw [if_neg h]
  have hdis : ∀ n ∈ validationNames, n ∉ trainNames := by decide
  refine ⟨fun h1 v => ?_, fun h2 => ?_, fun h1 h2 => ?_⟩
  · unfold SampleCtx.plain
    rw [if_pos h1]
    cases c.inputs name <;> simp [Except.map]
  · unfold SampleCtx.plain
    rw [if_neg (hdis _ h2), if_pos h2]
    cases c.inputs name with
    | some w => simp [Except.map]
    | none => cases c.files name <;> simp [Except.map]
  · unfold SampleCtx.plain
    rw [if_neg h1, if_neg h2]
    cases c.outputs name with
    | none => simp [Except.map]
    | some m =>
      match m with
      | [] => simp [Except.map]
      | [w] =>
        simp only [List.length_cons, List.length_nil]
        rw [if_neg (by omega)]
        refine ⟨?_, ?_, ?_⟩
        · split <;> simp [Except.map]
        · simp only [Option.some.injEq, exists_eq_left', List.length_cons, List.length_nil]
          split <;> simp [Except.map]
        · intro hb v
          rw [if_neg (by rintro ⟨rfl, hs⟩; rcases hb with hb | hb <;> simp_all)]
          simp [Except.map]
      | w :: w' :: r =>
        simp [Except.map]

/-- C128: in experiments with a spatial interaction model a stored `beta` is multiplied by `bmax`. -/
theorem C128_beta (c : SampleCtx) (v : Arr2) (hs : c.sim = true) (h : c.outputs "beta" = some [v]) :
    c.getSample "beta" = .ok (.array fun t j => v t j * c.bmax) := by
  unfold SampleCtx.getSample
  rw [if_neg (by simp)]
  unfold SampleCtx.plain
  rw [if_neg (by decide), if_neg (by decide), h]
  simp [hs, Except.map]

/-- The inputs the intensity needs are there. -/
def Spec.HasInputs (c : SampleCtx) (cost demand total : Arr2) : Prop :=
  c.inputs "cost_matrix" = some cost ∧ (c.production = true → c.inputs "origin_demand" = some demand) ∧ c.inputs "grand_total" = some total

theorem plain_train {c : SampleCtx} {name : String} {v : Arr2} (hn : name ∈ trainNames) (h : c.inputs name = some v) :
    c.plain name = .ok v := by
  unfold SampleCtx.plain
  rw [if_pos hn, h]

theorem plain_out {c : SampleCtx} {name : String} (hn : name ∉ trainNames) (hv : name ∉ validationNames) (hb : name ≠ "beta") :
    (∀ v, c.plain name = .ok v ↔ c.outputs name = some [v]) := by
  intro v
  unfold SampleCtx.plain
  rw [if_neg hn, if_neg hv]
  cases c.outputs name with
  | none => simp
  | some m =>
    match m with
    | [] => simp
    | [w] => simp [hb]
    | w :: w' :: r => simp

theorem plain_beta {c : SampleCtx} (hs : c.sim = true) (v : Arr2) :
    c.plain "beta" = .ok v ↔ ∃ w, c.outputs "beta" = some [w] ∧ v = fun t j => w t j * c.bmax := by
  unfold SampleCtx.plain
  rw [if_neg (by decide), if_neg (by decide)]
  cases c.outputs "beta" with
  | none => simp
  | some m =>
    match m with
    | [] => simp
    | [w] => simp [hs, eq_comm]
    | w :: w' :: r => simp

theorem intensity_inputs {c : SampleCtx} {cost demand total : Arr2} (h : Spec.HasInputs c cost demand total) :
    c.intensity = (do
      let alpha ← orExit (c.plain "alpha")
      let beta ← orExit (c.plain "beta")
      let x ← orExit (c.plain "log_destination_attraction")
      .ok (simIntensity c.production c.I c.J (total 0 0) (fun i => (if c.production then demand else fun _ _ => 0) i 0) cost (fun t => alpha t 0)
        (fun t => beta t 0) x)) := by
  obtain ⟨h1, h2, h3⟩ := h
  unfold SampleCtx.intensity
  rw [plain_train (by decide) h1, plain_train (by decide) h3]
  cases hp : c.production with
  | true =>
    rw [plain_train (by decide) (h2 hp)]
    rfl
  | false => rfl

/-- C128: with the inputs present, and the parameters and attractions stored once, the intensity that is read is for every draw the gravity
model at the stored attractions of that draw, with `beta` multiplied by `bmax`. -/
theorem C128_intensity (c : SampleCtx) (cost demand total alpha beta x : Arr2) (hs : c.sim = true) (hin : Spec.HasInputs c cost demand total)
    (ha : c.outputs "alpha" = some [alpha]) (hb : c.outputs "beta" = some [beta]) (hx : c.outputs "log_destination_attraction" = some [x])
    (hd : ∀ i, 0 ≤ demand i 0) (hG : 0 ≤ total 0 0) :
    ∃ m, c.getSample "intensity" = .ok (.matrices m) ∧ ∀ t, ∀ i < c.I, ∀ j < c.J,
      m t i j = Spec.gravity c.production c.I c.J (total 0 0) (fun i => demand i 0) cost (alpha t 0) (beta t 0 * c.bmax) (x t) i j := by
  have e1 := (plain_out (c := c) (name := "alpha") (by decide) (by decide) (by decide) alpha).2 ha
  have e2 := (plain_beta hs _).2 ⟨beta, hb, rfl⟩
  have e3 := (plain_out (c := c) (name := "log_destination_attraction") (by decide) (by decide) (by decide) x).2 hx
  refine ⟨_, by
    unfold SampleCtx.getSample
    rw [if_pos ⟨rfl, hs⟩, intensity_inputs hin, e1, e2, e3]
    rfl, ?_⟩
  intro t i hi j hj
  cases hp : c.production with
  | true =>
    exact simIntensity_eq true c.I c.J (total 0 0) _ cost _ _ x t i j hi hj hd hG
  | false =>
    rw [simIntensity_eq false c.I c.J (total 0 0) _ cost _ _ x t i j hi hj (by intro i; simp) hG]
    rfl

/-- C128: if a parameter or the attractions are missing, or stored in several collections, reading the intensity ends the program. -/
theorem C128_intensity_exit (c : SampleCtx) (cost demand total : Arr2) (hs : c.sim = true) (hin : Spec.HasInputs c cost demand total) :
    c.getSample "intensity" = .error .exit ↔
      ∃ name ∈ ["alpha", "beta", "log_destination_attraction"], ∀ v, c.outputs name ≠ some [v] := by
  unfold SampleCtx.getSample
  rw [if_pos ⟨rfl, hs⟩, intensity_inputs hin]
  have e1 := plain_out (c := c) (name := "alpha") (by decide) (by decide) (by decide)
  have e2 := plain_beta (c := c) hs
  have e3 := plain_out (c := c) (name := "log_destination_attraction") (by decide) (by decide) (by decide)
  simp only [List.mem_cons, List.not_mem_nil, or_false, exists_eq_or_imp, exists_eq_left]
  cases h1 : c.plain "alpha" with
  | error e =>
    refine ⟨fun _ => Or.inl fun v hv => ?_, fun _ => rfl⟩
    rw [(e1 v).2 hv] at h1; simp at h1
  | ok a =>
    have ha := (e1 a).1 h1
    cases h2 : c.plain "beta" with
    | error e =>
      refine ⟨fun _ => Or.inr (Or.inl fun v hv => ?_), fun _ => rfl⟩
      rw [(e2 _).2 ⟨v, hv, rfl⟩] at h2; simp at h2
    | ok b =>
      obtain ⟨w, hb, _⟩ := (e2 b).1 h2
      cases h3 : c.plain "log_destination_attraction" with
      | error e =>
        refine ⟨fun _ => Or.inr (Or.inr fun v hv => ?_), fun _ => rfl⟩
        rw [(e3 v).2 hv] at h3; simp at h3
      | ok x =>
        have hx := (e3 x).1 h3
        constructor
        · intro h
          exact absurd h (by simp [orExit, bind, Except.bind, Except.map])
        · rintro (h | h | h)
          · exact absurd ha (h _)
          · exact absurd hb (h _)
          · exact absurd hx (h _)

/-- An experiment with one origin and two destinations. -/
noncomputable def exSample (bmax : ℝ) (outputs : String → Option (List Arr2)) : SampleCtx where
  sim := true
  production := true
  bmax := bmax
  I := 1
  J := 2
  inputs := fun n => if n = "cost_matrix" then some fun _ j => j else if n = "origin_demand" then some fun _ _ => 1
    else if n = "grand_total" then some fun _ _ => 10 else none
  files := fun _ => none
  outputs := outputs

noncomputable def exOutputs : String → Option (List Arr2) := fun n =>
  if n = "alpha" then some [fun _ _ => 0] else if n = "beta" then some [fun _ _ => 1] else
  if n = "log_destination_attraction" then some [fun _ _ => 0] else none

theorem exSample_inputs (b : ℝ) (o : String → Option (List Arr2)) :
    Spec.HasInputs (exSample b o) (fun _ j => j) (fun _ _ => 1) (fun _ _ => 10) := ⟨rfl, fun _ => rfl, rfl⟩

example : ∃ m, (exSample 2 exOutputs).getSample "intensity" = .ok (.matrices m) ∧
    m 5 0 1 = 10 * (1 * (Real.exp (0 * 0 - 1 * 2 * 1) / ∑ k ∈ range 2, Real.exp (0 * 0 - 1 * 2 * (k : ℝ)))) := by
  obtain ⟨m, hm, h⟩ := C128_intensity (exSample 2 exOutputs) _ _ _ (fun _ _ => 0) (fun _ _ => 1) (fun _ _ => 0) rfl (exSample_inputs 2 _)
    rfl rfl rfl (by intro i; norm_num) (by norm_num)
  refine ⟨m, hm, ?_⟩
  rw [h 5 0 (by decide) 1 (by decide)]
  simp [Spec.gravity, Spec.choice, Spec.weight, exSample]

/-- C128: a missing input is not reported as missing data, but raises another exception (its attribute does not exist). -/
theorem C128_missing_input (c : SampleCtx) (name : String) (h : name ∈ trainNames) (hi : c.inputs name = none) :
    c.getSample name = .error .other := by
  have : name ≠ "intensity" := by rintro rfl; revert h; decide
  unfold SampleCtx.getSample
  rw [if_neg fun hc => this hc.1]
  unfold SampleCtx.plain
  rw [if_pos h, hi]
  rfl

example : (exSample 2 fun _ => none).inputs "margins" = none ∧ "margins" ∈ trainNames := ⟨rfl, by decide⟩

/-- C128: a missing sample is not always reported as such: asked for directly it is, but as part of the intensity it ends the program. -/
theorem C128_missing_false : ¬ ∀ (c : SampleCtx) (name : String), name = "intensity" → c.sim = true →
    (∃ cost demand total, Spec.HasInputs c cost demand total) → c.outputs "beta" = none → c.getSample name = .error .missingData := by
  intro h
  have h1 := h (exSample 2 fun _ => none) "intensity" rfl rfl ⟨_, _, _, exSample_inputs 2 _⟩ rfl
  rw [(C128_intensity_exit (exSample 2 fun _ => none) _ _ _ rfl (exSample_inputs 2 _)).2 ⟨"beta", by simp, by simp [exSample]⟩] at h1
  simp at h1

/-! ## The intensity of the experiment -/

/-- Two softmax distributions are equal exactly if the utilities differ by a constant. -/
theorem softmax_eq_iff {ι : Type} (s : Finset ι) (hs : s.Nonempty) (u v : ι → ℝ) :
    (∀ k ∈ s, Real.exp (u k) / ∑ l ∈ s, Real.exp (u l) = Real.exp (v k) / ∑ l ∈ s, Real.exp (v l)) ↔
      ∀ k ∈ s, ∀ l ∈ s, u k - v k = u l - v l := by
  have pu : 0 < ∑ l ∈ s, Real.exp (u l) := sum_pos (fun l _ => Real.exp_pos _) hs
  have pv : 0 < ∑ l ∈ s, Real.exp (v l) := sum_pos (fun l _ => Real.exp_pos _) hs
  constructor
  · intro h
    have key : ∀ k ∈ s, u k - v k = Real.log ((∑ l ∈ s, Real.exp (u l)) / ∑ l ∈ s, Real.exp (v l)) := by
      intro k hk
      have := h k hk
      rw [div_eq_div_iff pu.ne' pv.ne'] at this
      rw [← Real.log_exp (u k - v k), Real.exp_sub]
      congr 1
      rw [div_eq_div_iff (Real.exp_pos _).ne' pv.ne', this]
      ring
    intro k hk l hl
    rw [key k hk, key l hl]
  · intro h k hk
    have e : ∀ l ∈ s, Real.exp (u l) = Real.exp (u k - v k) * Real.exp (v l) := by
      intro l hl
      rw [← Real.exp_add, h k hk l hl]
      congr 1
      ring
    rw [e k hk, sum_congr rfl e, ← mul_sum, mul_div_mul_left _ _ (Real.exp_pos _).ne']

/-- C128: two gravity models with the same `alpha`, the same total and positive demand give the same intensity exactly if the utilities
`alpha * x - beta * cost` differ by a constant (for each origin; over the whole matrix for the totally constrained model). -/
theorem C128_agree_iff (I J : ℕ) (total : ℝ) (demand : ℕ → ℝ) (cost : ℕ → ℕ → ℝ) (alpha beta beta' : ℝ) (x x' : ℕ → ℝ) (hI : 0 < I)
    (hJ : 0 < J) (hG : 0 < total) (hd : ∀ i, 0 < demand i) :
    ((∀ i < I, ∀ j < J, Spec.gravity true I J total demand cost alpha beta x i j = Spec.gravity true I J total demand cost alpha beta' x' i j) ↔
      ∀ i < I, ∀ j < J, ∀ k < J, alpha * (x j - x' j) - (beta - beta') * cost i j = alpha * (x k - x' k) - (beta - beta') * cost i k) ∧
    ((∀ i < I, ∀ j < J, Spec.gravity false I J total demand cost alpha beta x i j = Spec.gravity false I J total demand cost alpha beta' x' i j) ↔
      ∀ i < I, ∀ h < I, ∀ j < J, ∀ k < J,
        alpha * (x j - x' j) - (beta - beta') * cost i j = alpha * (x k - x' k) - (beta - beta') * cost h k) := by
  have hr : (range J).Nonempty := ⟨0, mem_range.2 hJ⟩
  constructor
  · have main : ∀ i, (∀ j < J, Spec.gravity true I J total demand cost alpha beta x i j = Spec.gravity true I J total demand cost alpha beta' x' i j) ↔
        ∀ j < J, ∀ k < J, alpha * (x j - x' j) - (beta - beta') * cost i j = alpha * (x k - x' k) - (beta - beta') * cost i k := by
      intro i
      have := softmax_eq_iff (range J) hr (fun j => alpha * x j - beta * cost i j) (fun j => alpha * x' j - beta' * cost i j)
      simp only [mem_range] at this
      have e : (∀ j < J, Spec.gravity true I J total demand cost alpha beta x i j = Spec.gravity true I J total demand cost alpha beta' x' i j) ↔
          ∀ j < J, Real.exp (alpha * x j - beta * cost i j) / ∑ l ∈ range J, Real.exp (alpha * x l - beta * cost i l) =
            Real.exp (alpha * x' j - beta' * cost i j) / ∑ l ∈ range J, Real.exp (alpha * x' l - beta' * cost i l) := by
        refine forall₂_congr fun j hj => ?_
        simp only [Spec.gravity, if_true, Spec.choice, Spec.weight]
        rw [mul_right_inj' hG.ne', mul_right_inj' (hd i).ne']
      rw [e, this]
      refine forall₂_congr fun j hj => forall₂_congr fun k hk => ?_
      constructor <;> intro h <;> linarith
    exact forall₂_congr fun i _ => main i
  · have hr2 : (range I ×ˢ range J).Nonempty := ⟨(0, 0), by simp [hI, hJ]⟩
    have := softmax_eq_iff (range I ×ˢ range J) hr2 (fun q => alpha * x q.2 - beta * cost q.1 q.2) (fun q => alpha * x' q.2 - beta' * cost q.1 q.2)
    simp only [sum_product, mem_product, mem_range, Prod.forall] at this
    have e : (∀ i < I, ∀ j < J, Spec.gravity false I J total demand cost alpha beta x i j = Spec.gravity false I J total demand cost alpha beta' x' i j) ↔
        ∀ i j, i < I ∧ j < J → Real.exp (alpha * x j - beta * cost i j) / ∑ h ∈ range I, ∑ l ∈ range J, Real.exp (alpha * x l - beta * cost h l) =
          Real.exp (alpha * x' j - beta' * cost i j) / ∑ h ∈ range I, ∑ l ∈ range J, Real.exp (alpha * x' l - beta' * cost h l) := by
      simp only [Spec.gravity, Bool.false_eq_true, if_false, Spec.share, Spec.weight, mul_right_inj' hG.ne']
      exact ⟨fun h i j hij => h i hij.1 j hij.2, fun h i hi j hj => h i j ⟨hi, hj⟩⟩
    rw [e, this]
    constructor
    · intro h i hi k hk j hj l hl
      have := h i j ⟨hi, hj⟩ k l ⟨hk, hl⟩
      linarith
    · intro h i j hij k l hkl
      have := h i hij.1 k hkl.1 j hij.2 l hkl.2
      linarith

/-- C128: the intensity read back is the one in the parameter and attraction updates of the Markov chain experiments. -/
theorem C128_mcmc_steps (c : SampleCtx) (cost demand total alpha beta x : Arr2) (hs : c.sim = true) (hin : Spec.HasInputs c cost demand total)
    (ha : c.outputs "alpha" = some [alpha]) (hb : c.outputs "beta" = some [beta]) (hx : c.outputs "log_destination_attraction" = some [x])
    (hd : ∀ i, 0 ≤ demand i 0) (hG : 0 ≤ total 0 0) :
    ∃ m, c.getSample "intensity" = .ok (.matrices m) ∧ ∀ t, ∀ i < c.I, ∀ j < c.J, m t i j =
      mcmcStepIntensity c.production c.bmax c.I c.J (total 0 0) (fun i => demand i 0) cost (fun t => alpha t 0) (fun t => beta t 0) x t i j := by
  obtain ⟨m, hm, h⟩ := C128_intensity c cost demand total alpha beta x hs hin ha hb hx hd hG
  refine ⟨m, hm, fun t i hi j hj => ?_⟩
  rw [h t i hi j hj]
  unfold mcmcStepIntensity
  rw [simIntensity_eq _ _ _ _ _ _ _ _ _ _ _ _ hi hj hd hG]

/-- C128: it is the one the tables were sampled with in the joint Markov chain experiment exactly if, in every draw, `(bmax - 1) * beta` is
zero or all destinations have the same cost (from each origin; altogether for the totally constrained model). -/
theorem C128_tables_iff (c : SampleCtx) (cost demand total alpha beta x : Arr2) (hs : c.sim = true) (hin : Spec.HasInputs c cost demand total)
    (ha : c.outputs "alpha" = some [alpha]) (hb : c.outputs "beta" = some [beta]) (hx : c.outputs "log_destination_attraction" = some [x])
    (hI : 0 < c.I) (hJ : 0 < c.J) (hd : ∀ i, 0 < demand i 0) (hG : 0 < total 0 0) :
    ∃ m, c.getSample "intensity" = .ok (.matrices m) ∧ ∀ t,
      ((∀ i < c.I, ∀ j < c.J, mcmcTableIntensity c.production c.I c.J (total 0 0) (fun i => demand i 0) cost (fun t => alpha t 0)
        (fun t => beta t 0) x t i j = m t i j) ↔
      (c.bmax - 1) * beta t 0 = 0 ∨ (∀ i < c.I, ∀ h < c.I, (c.production = true → h = i) → ∀ j < c.J, ∀ k < c.J, cost i j = cost h k)) := by
  obtain ⟨m, hm, h⟩ := C128_intensity c cost demand total alpha beta x hs hin ha hb hx (fun i => (hd i).le) hG.le
  refine ⟨m, hm, fun t => ?_⟩
  have e : (∀ i < c.I, ∀ j < c.J, mcmcTableIntensity c.production c.I c.J (total 0 0) (fun i => demand i 0) cost (fun t => alpha t 0)
        (fun t => beta t 0) x t i j = m t i j) ↔ ∀ i < c.I, ∀ j < c.J,
      Spec.gravity c.production c.I c.J (total 0 0) (fun i => demand i 0) cost (alpha t 0) (beta t 0) (x t) i j =
      Spec.gravity c.production c.I c.J (total 0 0) (fun i => demand i 0) cost (alpha t 0) (beta t 0 * c.bmax) (x t) i j := by
    refine forall₂_congr fun i hi => forall₂_congr fun j hj => ?_
    rw [h t i hi j hj]
    unfold mcmcTableIntensity
    rw [simIntensity_eq _ _ _ _ _ _ _ _ _ _ _ _ hi hj (fun i => (hd i).le) hG.le]
  rw [e]
  obtain ⟨a1, a2⟩ := C128_agree_iff c.I c.J (total 0 0) (fun i => demand i 0) cost (alpha t 0) (beta t 0) (beta t 0 * c.bmax) (x t) (x t) hI hJ hG hd
  have hc : ∀ p q : ℝ, (alpha t 0 * (0 : ℝ) - (beta t 0 - beta t 0 * c.bmax) * p = alpha t 0 * 0 - (beta t 0 - beta t 0 * c.bmax) * q) ↔
      (c.bmax - 1) * beta t 0 = 0 ∨ p = q := by
    intro p q
    rw [← sub_eq_zero (a := p), ← mul_eq_zero]
    constructor <;> intro h <;> linarith
  simp only [sub_self] at a1 a2
  cases hp : c.production with
  | true =>
    rw [a1]
    simp only [hc]
    constructor
    · intro hh
      by_cases hz : (c.bmax - 1) * beta t 0 = 0
      · exact Or.inl hz
      · right
        intro i hi h' hh' he j hj k hk
        rw [he trivial]
        exact (hh i hi j hj k hk).resolve_left hz
    · rintro (hz | hh) i hi j hj k hk
      · exact Or.inl hz
      · exact Or.inr (hh i hi i hi (fun _ => rfl) j hj k hk)
  | false =>
    rw [a2]
    simp only [hc]
    constructor
    · intro hh
      by_cases hz : (c.bmax - 1) * beta t 0 = 0
      · exact Or.inl hz
      · right
        intro i hi h' hh' he j hj k hk
        exact (hh i hi h' hh' j hj k hk).resolve_left hz
    · rintro (hz | hh) i hi h' hh' j hj k hk
      · exact Or.inl hz
      · exact Or.inr (hh i hi h' hh' (by simp) j hj k hk)

/-- C128: so it need not be: with `bmax = 2` the tables of the joint experiment were sampled with another intensity than is read back. -/
theorem C128_tables_false : ¬ ∀ (c : SampleCtx) (cost demand total alpha beta x : Arr2), c.sim = true →
    Spec.HasInputs c cost demand total → c.outputs "alpha" = some [alpha] → c.outputs "beta" = some [beta] →
    c.outputs "log_destination_attraction" = some [x] → (∀ i, 0 < demand i 0) → 0 < total 0 0 →
    ∀ m, c.getSample "intensity" = .ok (.matrices m) → ∀ t, ∀ i < c.I, ∀ j < c.J,
      mcmcTableIntensity c.production c.I c.J (total 0 0) (fun i => demand i 0) cost (fun t => alpha t 0) (fun t => beta t 0) x t i j = m t i j := by
  intro h
  obtain ⟨m, hm, hi⟩ := C128_tables_iff (exSample 2 exOutputs) _ _ _ (fun _ _ => 0) (fun _ _ => 1) (fun _ _ => 0) rfl (exSample_inputs 2 _)
    rfl rfl rfl (by decide) (by decide) (by intro i; norm_num) (by norm_num)
  have := (hi 0).1 (h (exSample 2 exOutputs) _ _ _ (fun _ _ => 0) (fun _ _ => 1) (fun _ _ => 0) rfl (exSample_inputs 2 _)
    rfl rfl rfl (by intro i; norm_num) (by norm_num) m hm 0)
  rcases this with h1 | h1
  · norm_num [exSample] at h1
  · have := h1 0 (by decide) 0 (by decide) (fun _ => rfl) 0 (by decide) 1 (by decide)
    norm_num at this

/-- C128: with `bmax = 1` it is. -/
theorem C128_tables_partial (c : SampleCtx) (cost demand total alpha beta x : Arr2) (hs : c.sim = true) (hin : Spec.HasInputs c cost demand total)
    (ha : c.outputs "alpha" = some [alpha]) (hb : c.outputs "beta" = some [beta]) (hx : c.outputs "log_destination_attraction" = some [x])
    (hI : 0 < c.I) (hJ : 0 < c.J) (hd : ∀ i, 0 < demand i 0) (hG : 0 < total 0 0) (hbm : c.bmax = 1) :
    ∃ m, c.getSample "intensity" = .ok (.matrices m) ∧ ∀ t, ∀ i < c.I, ∀ j < c.J, mcmcTableIntensity c.production c.I c.J (total 0 0)
      (fun i => demand i 0) cost (fun t => alpha t 0) (fun t => beta t 0) x t i j = m t i j := by
  obtain ⟨m, hm, h⟩ := C128_tables_iff c cost demand total alpha beta x hs hin ha hb hx hI hJ hd hG
  exact ⟨m, hm, fun t => (h t).2 (Or.inl (by rw [hbm]; ring))⟩

example : ∃ c : SampleCtx, c.sim = true ∧ c.bmax = 1 ∧ 0 < c.I ∧ 0 < c.J ∧ (∃ d e f, Spec.HasInputs c d e f) ∧
    (∃ v, c.outputs "beta" = some [v]) := ⟨exSample 1 exOutputs, rfl, rfl, by decide, by decide, ⟨_, _, _, exSample_inputs 1 _⟩, _, rfl⟩

/-- C128: for the neural network experiments the intensity read back, at the stored attractions, is the intensity of the experiment exactly
if the utilities at the observed attractions with `beta` and at the stored ones with `beta * bmax` differ by a constant. -/
theorem C128_nn_iff (c : SampleCtx) (cost demand total alpha beta x : Arr2) (data : ℕ → ℝ) (hs : c.sim = true)
    (hin : Spec.HasInputs c cost demand total) (hp : c.production = true)
    (ha : c.outputs "alpha" = some [alpha]) (hb : c.outputs "beta" = some [beta]) (hx : c.outputs "log_destination_attraction" = some [x])
    (hI : 0 < c.I) (hJ : 0 < c.J) (hd : ∀ i, 0 < demand i 0) (hG : 0 < total 0 0) :
    ∃ m, c.getSample "intensity" = .ok (.matrices m) ∧ ∀ t,
      ((∀ i < c.I, ∀ j < c.J, nnIntensity c.production c.I c.J (total 0 0) (fun i => demand i 0) cost (fun t => alpha t 0)
        (fun t => beta t 0) data t i j = m t i j) ↔
      ∀ i < c.I, ∀ j < c.J, ∀ k < c.J,
        alpha t 0 * (Real.log (data j) - x t j) + (c.bmax - 1) * beta t 0 * cost i j =
        alpha t 0 * (Real.log (data k) - x t k) + (c.bmax - 1) * beta t 0 * cost i k) := by
  obtain ⟨m, hm, h⟩ := C128_intensity c cost demand total alpha beta x hs hin ha hb hx (fun i => (hd i).le) hG.le
  refine ⟨m, hm, fun t => ?_⟩
  have e : (∀ i < c.I, ∀ j < c.J, nnIntensity c.production c.I c.J (total 0 0) (fun i => demand i 0) cost (fun t => alpha t 0)
        (fun t => beta t 0) data t i j = m t i j) ↔ ∀ i < c.I, ∀ j < c.J,
      Spec.gravity c.production c.I c.J (total 0 0) (fun i => demand i 0) cost (alpha t 0) (beta t 0) (fun j => Real.log (data j)) i j =
      Spec.gravity c.production c.I c.J (total 0 0) (fun i => demand i 0) cost (alpha t 0) (beta t 0 * c.bmax) (x t) i j := by
    refine forall₂_congr fun i hi => forall₂_congr fun j hj => ?_
    rw [h t i hi j hj]
    unfold nnIntensity
    rw [simIntensity_eq _ _ _ _ _ _ _ _ _ _ _ _ hi hj (fun i => (hd i).le) hG.le]
  rw [e, hp, (C128_agree_iff c.I c.J (total 0 0) (fun i => demand i 0) cost (alpha t 0) (beta t 0) (beta t 0 * c.bmax)
    (fun j => Real.log (data j)) (x t) hI hJ hG hd).1]
  refine forall₂_congr fun i _ => forall₂_congr fun j _ => forall₂_congr fun k _ => ?_
  constructor <;> intro h <;> linarith

/-- The parameters of the witness. -/
def exPot : PotParams := ⟨1, 0, 0, 1, 0, 1⟩

/-- Two destinations with attractions 1 and 2. -/
def exAttr : ℕ → ℝ := fun j => if j = 0 then 1 else 2

theorem ex_flow (t j : ℕ) (hj : j < 2) :
    nnIntensity true 1 2 1 (fun _ => 1) (fun _ j => j) (fun _ => 1) (fun _ => 0) exAttr t 0 j = exAttr j / 3 := by
  unfold nnIntensity
  rw [simIntensity_eq _ _ _ _ _ _ _ _ _ _ _ _ (by norm_num) hj (by intro i; norm_num) (by norm_num)]
  have h : ∀ k < 2, Real.exp (Real.log (exAttr k)) = exAttr k := by
    intro k hk
    rw [Real.exp_log]
    unfold exAttr
    split <;> norm_num
  simp only [Spec.gravity, if_true, Spec.choice, Spec.weight, one_mul, zero_mul, sub_zero]
  rw [h j hj, sum_congr rfl fun k hk => h k (mem_range.1 hk)]
  norm_num [sum_range_succ, exAttr]

/-- C128: for the neural network experiments the intensity read back need not be that of the experiment, even with `bmax = 1`: the stored
attractions are those after the step of the dynamics, the intensity was computed at the observed ones. -/
theorem C128_nn_false : ¬ ∀ (c : SampleCtx) (cost demand total alpha beta noise : Arr2) (data : ℕ → ℝ) (p : PotParams) (dt : ℝ), c.sim = true →
    c.bmax = 1 → Spec.HasInputs c cost demand total → c.outputs "alpha" = some [alpha] → c.outputs "beta" = some [beta] →
    c.outputs "log_destination_attraction" = some [nnStored p dt c.production c.I c.J (fun i => demand i 0) cost (fun t => alpha t 0)
      (fun t => beta t 0) data noise] → (∀ i, 0 < demand i 0) → 0 < total 0 0 → (∀ j, 0 < data j) → 0 < dt →
    ∀ m, c.getSample "intensity" = .ok (.matrices m) → ∀ t, ∀ i < c.I, ∀ j < c.J,
      nnIntensity c.production c.I c.J (total 0 0) (fun i => demand i 0) cost (fun t => alpha t 0) (fun t => beta t 0) data t i j = m t i j := by
  intro h
  set x : Arr2 := nnStored exPot (1 / 2) true 1 2 (fun _ => 1) (fun _ j => j) (fun _ => 1) (fun _ => 0) exAttr (fun _ _ => 0) with hx
  set o : String → Option (List Arr2) := fun n => if n = "alpha" then some [fun _ _ => 1] else if n = "beta" then some [fun _ _ => 0] else
    if n = "log_destination_attraction" then some [x] else none with ho
  obtain ⟨m, hm, hi⟩ := C128_nn_iff (exSample 1 o) _ _ _ (fun _ _ => 1) (fun _ _ => 0) x exAttr rfl (exSample_inputs 1 _) rfl
    rfl rfl rfl (by decide) (by decide) (by intro i; norm_num) (by norm_num)
  have h2 := (hi 0).1 (h (exSample 1 o) _ _ _ (fun _ _ => 1) (fun _ _ => 0) (fun _ _ => 0) exAttr exPot (1 / 2) rfl rfl (exSample_inputs 1 _)
    rfl rfl rfl (by intro i; norm_num) (by norm_num) (by intro j; unfold exAttr; split <;> norm_num) (by norm_num) m hm 0)
  have h3 := h2 0 (by decide) 0 (by decide) 1 (by decide)
  have hr : ∀ j < 2, x 0 j = Real.log (2 / 3) := by
    intro j hj
    rw [hx]
    unfold nnStored runSingle
    simp only [sum_range_one]
    rw [ex_flow 0 j hj]
    congr 1
    have : j = 0 ∨ j = 1 := by omega
    rcases this with rfl | rfl <;> norm_num [exPot, exAttr]
  rw [hr 0 (by norm_num), hr 1 (by norm_num)] at h3
  have : Real.log 2 > 0 := Real.log_pos (by norm_num)
  simp [exAttr] at h3
  linarith

end GeNSIT
