import Verif.Sampler.Lemmas
import Mathlib.Analysis.Calculus.Deriv.Basic
import Mathlib.Tactic.NormNum

/-!
# C57, C58, C71–C76: the samplers of theta and of the log attractions
-/

set_option linter.unusedSimpArgs false
set_option linter.unusedSectionVars false

namespace GeNSIT

variable {K ι T : Type} [Field K] [LinearOrder K] [IsStrictOrderedRing K] [Fintype ι]

/-- A one-dimensional instance over the rationals: potential `x`, gradient `1`, one observation at
zero, a table likelihood equal to `beta + x`. -/
def demoPhys : Phys ℚ Unit ℕ where
  bmax := 2
  pot := fun _ x => x ()
  grad := fun _ _ _ => 1
  nlt := fun th x _ => th 1 + x ()
  nltJac := fun _ _ _ _ => 1
  obs := fun _ => 0
  noiseVar := 1

/-! ## C57: theta stays in the box -/

/-- **C57.** One theta update keeps the parameters inside `[0,2)²`. -/
theorem C57_box (ph : Phys K ι T) (walk : Fin 2 → K) (z : (Fin 2 → K) → K × K) (logU : K)
    (x : ι → K) (th : Fin 2 → K) (aux : Aux K ι) (h : Spec.InBox th) :
    Spec.InBox (thetaStep ph walk z logU x (th, aux)).1.1 := by
  rcases thetaStep_cases ph walk z logU x (th, aux) with h1 | ⟨h0, h1⟩
  · rw [h1]; exact h
  · rw [h1]; exact inBox_of_not_outside h0

/-- **C57.** The same for the update given a table. -/
theorem C57_box_given_table (ph : Phys K ι T) (walk : Fin 2 → K) (z : (Fin 2 → K) → K × K)
    (logU : K) (x : ι → K) (tab : T) (th : Fin 2 → K) (aux : Aux K ι) (l : K)
    (h : Spec.InBox th) :
    Spec.InBox (thetaStepT ph walk z logU x tab (th, aux, l)).1.1 := by
  rcases thetaStepT_cases ph walk z logU x tab (th, aux, l) with h1 | ⟨h0, h1⟩
  · rw [h1]; exact h
  · rw [h1]; exact inBox_of_not_outside h0

/-- **C57.** A reflected proposal that is still outside the box is rejected, and the previous sample
and all auxiliary values come back unchanged. -/
theorem C57_outside_rejected (ph : Phys K ι T) (walk : Fin 2 → K) (z : (Fin 2 → K) → K × K)
    (logU : K) (x : ι → K) (tab : T) (th : Fin 2 → K) (aux : Aux K ι) (l : K)
    (h : ¬ Spec.InBox (thetaProposal th walk)) :
    thetaStep ph walk z logU x (th, aux) = ((th, aux), 0) ∧
      thetaStepT ph walk z logU x tab (th, aux, l) = ((th, aux, l), 0) := by
  have h' := (outside_iff _).2 h
  unfold thetaStep thetaStepT
  simp only [h', if_true, and_self]

/-- **C57.** The acceptance flag tells whether the sample was replaced by the proposal. -/
theorem C57_flag (ph : Phys K ι T) (walk : Fin 2 → K) (z : (Fin 2 → K) → K × K) (logU : K)
    (x : ι → K) (th : Fin 2 → K) (aux : Aux K ι) :
    ((thetaStep ph walk z logU x (th, aux)).2 = 0 ∧
        (thetaStep ph walk z logU x (th, aux)).1 = (th, aux)) ∨
      ((thetaStep ph walk z logU x (th, aux)).2 = 1 ∧
        (thetaStep ph walk z logU x (th, aux)).1.1 = thetaProposal th walk) := by
  rcases thetaStep_cases ph walk z logU x (th, aux) with h1 | ⟨_, h1⟩
  · left; rw [h1]; exact ⟨rfl, rfl⟩
  · right; rw [h1]; exact ⟨rfl, rfl⟩

/-- **C57.** Over any history of the sampler without tables: any interleaving of theta and
attraction steps, any draws. -/
theorem C57_history (ph : Phys K ι T) (ops : List (SimOp K ι)) (s s' : SimState K ι)
    (h : Spec.InBox s.theta) (hr : ops.foldlM (simStep ph) s = some s') :
    Spec.InBox s'.theta := by
  induction ops generalizing s with
  | nil => rw [List.foldlM_nil] at hr; cases hr; exact h
  | cons op ops ih =>
    rw [List.foldlM_cons] at hr
    obtain ⟨s1, h1, h2⟩ := Option.bind_eq_some_iff.1 hr
    refine ih s1 ?_ h2
    cases op with
    | theta walk z logU =>
      cases h1
      exact C57_box ph walk z logU s.x s.theta s.aux h
    | attraction eps n mom logU =>
      obtain ⟨r, _, h3⟩ := Option.map_eq_some_iff.1 h1
      cases h3; exact h

/-- **C57.** Over any history of the joint sampler. -/
theorem C57_joint_history (ph : Phys K ι T) (ops : List (JointOp K ι T))
    (s s' : JointState K ι T) (h : Spec.InBox s.theta)
    (hr : ops.foldlM (jointStep ph) s = some s') : Spec.InBox s'.theta := by
  induction ops generalizing s with
  | nil => rw [List.foldlM_nil] at hr; cases hr; exact h
  | cons op ops ih =>
    rw [List.foldlM_cons] at hr
    obtain ⟨s1, h1, h2⟩ := Option.bind_eq_some_iff.1 hr
    refine ih s1 ?_ h2
    cases op with
    | theta walk z logU =>
      cases h1
      exact C57_box_given_table ph walk z logU s.x s.table s.theta s.aux s.nlt h
    | attraction eps n mom logU =>
      obtain ⟨r, _, h3⟩ := Option.map_eq_some_iff.1 h1
      cases h3; exact h
    | tables tab => cases h1; exact h

example : Spec.InBox (![1, 1 / 2] : Fin 2 → ℚ) ∧
    (([SimOp.theta ![3 / 2, -1] (fun _ => (0, 1)) (-5),
      SimOp.attraction 1 1 (fun _ => 0) (-5)].foldlM (simStep demoPhys)
      (simInit demoPhys ![1, 1 / 2] (fun _ => 0) (0, 1))).map
        fun s => (s.theta 0, s.theta 1, s.x ())) = some (3 / 2, 1 / 2, -1 / 2) := by
  constructor
  · intro i; fin_cases i <;> norm_num
  · decide +kernel

/-! ## C71: the reflected proposal is symmetric -/

/-- **C71.** Inside the box, exactly three steps lead from `a` to `b`: the direct one and one
reflection at each boundary. -/
theorem C71_steps (a b w : Fin 2 → K) (hb : Spec.InBox b) :
    thetaProposal a w = b ↔
      ∀ i, w i = b i - a i ∨ w i = -b i - a i ∨ w i = 4 - b i - a i := by
  unfold thetaProposal
  rw [funext_iff]
  refine forall_congr' fun i => ?_
  rw [reflect_eq_iff (hb i).1 (hb i).2]
  constructor
  · rintro (h | h | h)
    · left; linarith
    · right; left; linarith
    · right; right; linarith
  · rintro (h | h | h)
    · left; linarith
    · right; left; linarith
    · right; right; linarith

/-- **C71.** Whatever step leads from `a` to `b`, a step with the same absolute coordinates leads
back; so a proposal law that only depends on absolute coordinates is symmetric. -/
theorem C71_symmetric (a b w : Fin 2 → K) (ha : Spec.InBox a) (hb : Spec.InBox b)
    (h : thetaProposal a w = b) :
    ∃ w', (∀ i, w' i = w i ∨ w' i = -w i) ∧ thetaProposal b w' = a := by
  rw [C71_steps a b w hb] at h
  refine ⟨fun i => if w i = b i - a i then -w i else w i, ?_, ?_⟩
  · intro i
    by_cases hc : w i = b i - a i
    · right; simp [hc]
    · left; simp [hc]
  · rw [C71_steps b a _ ha]
    intro i
    by_cases hc : w i = b i - a i
    · left; simp [hc]
    · right
      simp only [hc, if_false]
      rcases h i with h | h | h
      · exact absurd h hc
      · left; linarith
      · right; linarith

example : thetaProposal (![1, 1 / 2] : Fin 2 → ℚ) ![3 / 2, -1] = ![3 / 2, 1 / 2] := by
  decide +kernel

/-! ## C58: leapfrog -/

/-- **C58.** The leapfrog integrator of the annealed importance sampler is reversible, for every
gradient, step size and number of steps. -/
theorem C58_reversible (eps : K) (g : (ι → K) → (ι → K)) (n : ℕ) :
    Spec.Reversible (leapfrog eps g n) := by
  intro x p
  simp only [leapfrog_eq_iter]
  exact kdk_iter_flip eps g n (x, p)

/-- **C58.** Hence the integrator is a bijection of phase space. -/
theorem C58_bijective (eps : K) (g : (ι → K) → (ι → K)) (n : ℕ) :
    Function.Bijective (leapfrog eps g n) := by
  have h : ∀ s, leapfrog eps g n (flipMom (leapfrog eps g n s)) = flipMom s := by
    intro s
    simp only [leapfrog_eq_iter]
    exact kdk_iter_flip eps g n s
  constructor
  · intro s s' hs
    have h1 := h s
    rw [hs, h s'] at h1
    have := congrArg flipMom h1
    rwa [flipMom_flipMom, flipMom_flipMom, eq_comm] at this
  · intro s
    exact ⟨flipMom (leapfrog eps g n (flipMom s)), by rw [h, flipMom_flipMom]⟩

/-- **C58.** The annealing step moves along the leapfrog integrator of the tempered potential and
accepts with the tempered energy difference between the two end points. -/
theorem C58_ais_step (V0 V1 : (ι → K) → K) (g0 g1 : (ι → K) → (ι → K)) (temp : ℕ → K) (eps : K)
    (n it : ℕ) (s : Particle K ι) (d : AisDraw K ι)
    (h : s.v0 = V0 s.x ∧ s.v1 = V1 s.x ∧ s.d0 = g0 s.x ∧ s.d1 = g1 s.x) :
    let V := fun x => (1 - temp it) * V0 x + temp it * V1 x
    let r := leapfrog eps (fun x => (1 - temp it) • g0 x + temp it • g1 x) (n + 1) (s.x, d.mom)
    (aisStep V0 V1 g0 g1 temp eps n it s d).x =
      if d.logU < Spec.energy V s.x d.mom - Spec.energy V r.1 r.2 then r.1 else s.x := by
  obtain ⟨h1, h2, h3, h4⟩ := h
  intro V r
  unfold aisStep
  simp only [h1, h2, h3, h4]
  rw [apply_ite Particle.x]
  refine if_congr ?_ rfl rfl
  have he : ∀ q : ι → K, Spec.kinetic q = 1 / 2 * dot q q := by
    intro q; unfold Spec.kinetic dot; ring
  simp only [Spec.energy, he]
  rfl

/-- **C58.** Seen from the end point with reversed momentum, the energy difference is the opposite:
the acceptance rule is antisymmetric along a trajectory. -/
theorem C58_ratio_antisymmetric (V : (ι → K) → K) (eps : K) (g : (ι → K) → (ι → K)) (n : ℕ)
    (x p : ι → K) :
    let r := leapfrog eps g n (x, p)
    let b := leapfrog eps g n (r.1, -r.2)
    Spec.energy V r.1 (-r.2) - Spec.energy V b.1 b.2 =
      -(Spec.energy V x p - Spec.energy V r.1 r.2) := by
  intro r b
  have hb : b = (x, -p) := C58_reversible eps g n x p
  rw [hb]
  simp only [Spec.energy, Spec.kinetic, Pi.neg_apply, neg_mul_neg]
  ring

example : leapfrog (ι := Unit) (1 : ℚ) (fun x => x) 2 (fun _ => 1, fun _ => 0) =
    (fun _ => -1 / 2, fun _ => -3 / 4) := by decide +kernel

/-- **C58 (attraction update, exact behaviour).** The proposal of the attraction update is the
leapfrog trajectory of the potential gradient plus the data gradient *frozen at the previous
sample*. -/
theorem C58_attraction_frozen (ph : Phys K ι T) (sc : Fin 2 → K) (eps : K) (n : ℕ)
    (prev mom : ι → K) :
    ((xLoop ph sc eps n prev mom (ph.grad sc prev)).x,
        (xLoop ph sc eps n prev mom (ph.grad sc prev)).p) =
      leapfrog eps (fun y => ph.grad sc y + obsGrad ph prev) n (prev, mom) := by
  have key : ∀ m (s : XLoop K ι) (t : (ι → K) × (ι → K) × (ι → K)),
      s.x = t.1 → s.p = t.2.1 → s.gradW = t.2.2 →
      ((xLoopStep ph sc eps prev)^[m] s).x =
        ((leapStep eps (fun y => ph.grad sc y + obsGrad ph prev))^[m] t).1 ∧
      ((xLoopStep ph sc eps prev)^[m] s).p =
        ((leapStep eps (fun y => ph.grad sc y + obsGrad ph prev))^[m] t).2.1 := by
    intro m
    induction m with
    | zero => intro s t h1 h2 _; exact ⟨h1, h2⟩
    | succ m ih =>
      intro s t h1 h2 h3
      rw [Function.iterate_succ_apply, Function.iterate_succ_apply]
      apply ih <;> simp only [xLoopStep, leapStep, h1, h2, h3]
  have := key n { x := prev, p := mom, gradW := ph.grad sc prev + obsGrad ph prev, new := none }
    (prev, mom, ph.grad sc prev + obsGrad ph prev) rfl rfl rfl
  exact Prod.ext this.1 this.2

/-- **C58 is false for the attraction update**: because the data gradient is not re-evaluated along
the trajectory, the reversed trajectory does not lead back. -/
theorem C58_attraction_false :
    ¬ ∀ (ph : Phys ℚ Unit ℕ) (sc : Fin 2 → ℚ) (eps : ℚ) (n : ℕ),
      Spec.Reversible fun s => ((xLoop ph sc eps n s.1 s.2 (ph.grad sc s.1)).x,
        (xLoop ph sc eps n s.1 s.2 (ph.grad sc s.1)).p) := by
  intro h
  have h1 := congrArg (fun s => s.1 ()) (h demoPhys ![1, 1] 1 1 (fun _ => 1) (fun _ => 0))
  revert h1
  decide +kernel

/-! ## C72: the cached potential is the potential of the current sample -/

/-- **C72.** Throughout any run of the sampler without tables, the cached potential and gradient are
those of the current (scaled) theta and the current attractions. -/
theorem C72_potential_cache (ph : Phys K ι T) (th : Fin 2 → K) (x : ι → K) (z0 : K × K)
    (ops : List (SimOp K ι)) (s : SimState K ι)
    (hr : ops.foldlM (simStep ph) (simInit ph th x z0) = some s) :
    s.aux.V = ph.pot (scaleTheta ph.bmax s.theta) s.x ∧
      s.aux.gradV = ph.grad (scaleTheta ph.bmax s.theta) s.x := by
  have key : ∀ (ops : List (SimOp K ι)) (s0 : SimState K ι),
      (s0.aux.V = ph.pot (scaleTheta ph.bmax s0.theta) s0.x ∧
        s0.aux.gradV = ph.grad (scaleTheta ph.bmax s0.theta) s0.x) →
      ops.foldlM (simStep ph) s0 = some s →
      (s.aux.V = ph.pot (scaleTheta ph.bmax s.theta) s.x ∧
        s.aux.gradV = ph.grad (scaleTheta ph.bmax s.theta) s.x) := by
    intro ops
    induction ops with
    | nil => intro s0 h hr; rw [List.foldlM_nil] at hr; cases hr; exact h
    | cons op ops ih =>
      intro s0 h hr
      rw [List.foldlM_cons] at hr
      obtain ⟨s1, h1, h2⟩ := Option.bind_eq_some_iff.1 hr
      refine ih s1 ?_ h2
      cases op with
      | theta walk z logU =>
        cases h1
        rcases thetaStep_cases ph walk z logU s0.x (s0.theta, s0.aux) with h3 | ⟨_, h3⟩
        · simp only [h3]; exact h
        · constructor <;> simp [h3]
      | attraction eps n mom logU =>
        obtain ⟨r, h3, h4⟩ := Option.map_eq_some_iff.1 h1
        rcases xStep_cases ph eps n mom logU _ _ r h3 with h5 | ⟨x', h5⟩
        · subst h5; cases h4; exact h
        · subst h5; cases h4; exact ⟨rfl, rfl⟩
  exact key ops _ ⟨rfl, rfl⟩ hr

/-- **C72.** The same for the joint sampler, table steps included. -/
theorem C72_joint_potential_cache (ph : Phys K ι T) (th : Fin 2 → K) (x : ι → K) (tab : T)
    (z0 : K × K) (ops : List (JointOp K ι T)) (s : JointState K ι T)
    (hr : ops.foldlM (jointStep ph) (jointInit ph th x tab z0) = some s) :
    s.aux.V = ph.pot (scaleTheta ph.bmax s.theta) s.x ∧
      s.aux.gradV = ph.grad (scaleTheta ph.bmax s.theta) s.x := by
  have key : ∀ (ops : List (JointOp K ι T)) (s0 : JointState K ι T),
      (s0.aux.V = ph.pot (scaleTheta ph.bmax s0.theta) s0.x ∧
        s0.aux.gradV = ph.grad (scaleTheta ph.bmax s0.theta) s0.x) →
      ops.foldlM (jointStep ph) s0 = some s →
      (s.aux.V = ph.pot (scaleTheta ph.bmax s.theta) s.x ∧
        s.aux.gradV = ph.grad (scaleTheta ph.bmax s.theta) s.x) := by
    intro ops
    induction ops with
    | nil => intro s0 h hr; rw [List.foldlM_nil] at hr; cases hr; exact h
    | cons op ops ih =>
      intro s0 h hr
      rw [List.foldlM_cons] at hr
      obtain ⟨s1, h1, h2⟩ := Option.bind_eq_some_iff.1 hr
      refine ih s1 ?_ h2
      cases op with
      | theta walk z logU =>
        cases h1
        rcases thetaStepT_cases ph walk z logU s0.x s0.table (s0.theta, s0.aux, s0.nlt)
          with h3 | ⟨_, h3⟩
        · simp only [h3]; exact h
        · constructor <;> simp [h3]
      | attraction eps n mom logU =>
        obtain ⟨r, h3, h4⟩ := Option.map_eq_some_iff.1 h1
        rcases xStepT_cases ph eps n mom logU _ _ _ r h3 with h5 | ⟨x', h5⟩
        · subst h5; cases h4; exact h
        · subst h5; cases h4; exact ⟨rfl, rfl⟩
      | tables tab => cases h1; exact h
  exact key ops _ ⟨rfl, rfl⟩ hr

example : (([SimOp.theta ![3 / 2, -1] (fun _ => (0, 1)) (-5),
      SimOp.attraction 1 1 (fun _ => 0) (-5)].foldlM (simStep demoPhys)
      (simInit demoPhys ![1, 1 / 2] (fun _ => 0) (0, 1))).map
        fun s => s.aux.V) = some (-1 / 2) := by decide +kernel

/-! ## C73: the cached table likelihood -/

/-- The cached table likelihood belongs to the current sample. -/
def TableCacheOk (ph : Phys K ι T) (s : JointState K ι T) : Prop :=
  s.nlt = ph.nlt (scaleTheta ph.bmax s.theta) s.x s.table

/-- **C73, partial.** Theta steps keep the cached table likelihood right. -/
theorem C73_theta_partial (ph : Phys K ι T) (s s' : JointState K ι T) (walk : Fin 2 → K)
    (z : (Fin 2 → K) → K × K) (logU : K) (h : TableCacheOk ph s)
    (hr : jointStep ph s (.theta walk z logU) = some s') : TableCacheOk ph s' := by
  cases hr
  unfold TableCacheOk
  rcases thetaStepT_cases ph walk z logU s.x s.table (s.theta, s.aux, s.nlt) with h3 | ⟨_, h3⟩
  · simp only [h3]; exact h
  · simp only [h3]

/-- **C73 (exact behaviour).** An accepted attraction step caches the likelihood of the sample it
leaves, not of the sample it returns. -/
theorem C73_attraction_stale (ph : Phys K ι T) (s s' : JointState K ι T) (eps : K) (n : ℕ)
    (mom : ι → K) (logU : K) (hr : jointStep ph s (.attraction eps n mom logU) = some s') :
    s' = s ∨ s'.nlt = ph.nlt (scaleTheta ph.bmax s.theta) s.x s.table := by
  obtain ⟨r, h3, h4⟩ := Option.map_eq_some_iff.1 hr
  rcases xStepT_cases ph eps n mom logU _ _ _ r h3 with h5 | ⟨x', h5⟩
  · left; subst h5; exact h4.symm
  · right; subst h5; subst h4; rfl

/-- **C73 (exact behaviour).** After the table steps the cache holds the likelihood at the unscaled
theta; it is right whenever the scaling changes nothing. -/
theorem C73_tables_partial (ph : Phys K ι T) (s s' : JointState K ι T) (tab : T)
    (hb : ph.bmax = 1) (hr : jointStep ph s (.tables tab) = some s') : TableCacheOk ph s' := by
  cases hr
  unfold TableCacheOk
  have : scaleTheta ph.bmax s.theta = s.theta := by
    funext i
    unfold scaleTheta
    rw [hb, mul_one]
    split
    · next h => rw [h]
    · rfl
  simp only [this]

/-- **C73 is false**: one accepted attraction step leaves a stale likelihood in the cache. -/
theorem C73_attraction_false :
    ¬ ∀ (ph : Phys ℚ Unit ℕ) (th : Fin 2 → ℚ) (x : Unit → ℚ) (tab : ℕ) (z0 : ℚ × ℚ) (eps : ℚ)
      (n : ℕ) (mom : Unit → ℚ) (logU : ℚ) (s : JointState ℚ Unit ℕ), ph.bmax = 1 →
      jointStep ph (jointInit ph th x tab z0) (.attraction eps n mom logU) = some s →
      TableCacheOk ph s := by
  intro h
  obtain ⟨s, hs⟩ : ∃ s, jointStep { demoPhys with bmax := 1 }
      (jointInit { demoPhys with bmax := 1 } ![1, 1] (fun _ => 0) 0 (0, 1))
      (.attraction 1 1 (fun _ => 1) (-5)) = some s :=
    Option.isSome_iff_exists.1 (by decide +kernel)
  have hv : ((jointStep { demoPhys with bmax := 1 }
      (jointInit { demoPhys with bmax := 1 } ![1, 1] (fun _ => 0) 0 (0, 1))
      (.attraction 1 1 (fun _ => 1) (-5))).map fun s => (s.nlt, s.theta 1, s.x ())) =
      some (1, 1, 1) := by decide +kernel
  have h1 := h _ _ _ _ _ _ _ _ _ s rfl hs
  rw [hs] at hv
  simp only [Option.map_some, Option.some.injEq, Prod.mk.injEq] at hv
  obtain ⟨e1, e2, e3⟩ := hv
  have h2 : s.nlt = s.theta 1 * 1 + s.x () := h1
  rw [e1, e2, e3] at h2
  norm_num at h2

/-- **C73 is false**: with a scaling factor different from one, the table steps leave the likelihood
of other parameters in the cache. -/
theorem C73_scaling_false :
    ¬ ∀ (ph : Phys ℚ Unit ℕ) (th : Fin 2 → ℚ) (x : Unit → ℚ) (tab tab' : ℕ) (z0 : ℚ × ℚ)
      (s : JointState ℚ Unit ℕ),
      jointStep ph (jointInit ph th x tab z0) (.tables tab') = some s → TableCacheOk ph s := by
  intro h
  have h1 := h demoPhys ![1, 1] (fun _ => 0) 0 0 (0, 1) _ rfl
  unfold TableCacheOk at h1
  revert h1
  decide +kernel

/-! ## C74: the acceptance rule of the attraction update -/

/-- The potential the attraction update is meant to use: potential plus data likelihood. -/
def fullPot (ph : Phys K ι T) (sc : Fin 2 → K) (x : ι → K) : K := ph.pot sc x + obsNll ph x

/-- **C74.** The data likelihood and the gradient used with it belong together: the likelihood is the quadratic with that gradient. -/
theorem C74_likelihood_gradient (ph : Phys K ι T) (x h : ι → K) :
    obsNll ph (x + h) = obsNll ph x + (∑ k, obsGrad ph x k * h k) + 1 / (2 * ph.noiseVar) * ∑ k, h k * h k := by
  unfold obsNll obsGrad dot
  simp only [Pi.add_apply, Pi.sub_apply, Pi.smul_apply, smul_eq_mul, Finset.mul_sum]
  rw [← Finset.sum_add_distrib, ← Finset.sum_add_distrib]
  refine Finset.sum_congr rfl fun k _ => ?_
  rw [one_div, one_div, one_div, mul_inv]
  ring

/-- **C74.** Its size: half the squared distance to the observations, measured in noise variances. -/
theorem C74_likelihood_value (ph : Phys K ι T) (x : ι → K) :
    2 * ph.noiseVar * obsNll ph x = (if ph.noiseVar = 0 then 0 else ∑ k, (x k - ph.obs k) ^ 2) := by
  unfold obsNll dot
  by_cases h : ph.noiseVar = 0
  · simp [h]
  · rw [if_neg h]
    have : ∑ k, (x - ph.obs) k * (x - ph.obs) k = ∑ k, (x k - ph.obs k) ^ 2 :=
      Finset.sum_congr rfl fun k _ => by simp only [Pi.sub_apply]; ring
    rw [this]
    field_simp

/-- **C74 (exact behaviour).** With at least one leapfrog step and a right cache, the attraction
update accepts exactly when the uniform is below the change of the potential energy *without* the
data likelihood. -/
theorem C74_ratio_ignores_data (ph : Phys K ι T) (eps : K) (n : ℕ) (mom : ι → K) (logU : K)
    (th : Fin 2 → K) (x : ι → K) :
    let sc := scaleTheta ph.bmax th
    let r := leapfrog eps (fun y => ph.grad sc y + obsGrad ph x) (n + 1) (x, mom)
    xStep ph eps (n + 1) mom logU th (x, ph.pot sc x, ph.grad sc x) =
      if logU < Spec.energy (ph.pot sc) x mom - Spec.energy (ph.pot sc) r.1 r.2 then
        some ((r.1, ph.pot sc r.1, ph.grad sc r.1), 1)
      else some ((x, ph.pot sc x, ph.grad sc x), 0) := by
  intro sc r
  have hr := C58_attraction_frozen ph sc eps (n + 1) x mom
  have hx : (xLoop ph sc eps (n + 1) x mom (ph.grad sc x)).x = r.1 := congrArg Prod.fst hr
  have hp : (xLoop ph sc eps (n + 1) x mom (ph.grad sc x)).p = r.2 := congrArg Prod.snd hr
  unfold xStep
  simp only [show scaleTheta ph.bmax th = sc from rfl, xLoop_new, hx, hp]
  have he : (1 / 2 * dot mom mom + (ph.pot sc x + obsNll ph x) -
      (1 / 2 * dot r.2 r.2 + (ph.pot sc r.1 + obsNll ph x))) =
      Spec.energy (ph.pot sc) x mom - Spec.energy (ph.pot sc) r.1 r.2 := by
    simp only [Spec.energy, Spec.kinetic, dot]
    ring
  rw [he]

/-- **C74 is false**: the update does not accept according to the energy that includes the data. -/
theorem C74_false :
    ¬ ∀ (ph : Phys ℚ Unit ℕ) (eps : ℚ) (n : ℕ) (mom : Unit → ℚ) (logU : ℚ) (th : Fin 2 → ℚ)
      (x : Unit → ℚ) (r : ((Unit → ℚ) × ℚ × (Unit → ℚ)) × ℕ),
      xStep ph eps (n + 1) mom logU th
        (x, ph.pot (scaleTheta ph.bmax th) x, ph.grad (scaleTheta ph.bmax th) x) = some r →
      (r.2 = 1 ↔ logU < Spec.energy (fullPot ph (scaleTheta ph.bmax th)) x mom -
        Spec.energy (fullPot ph (scaleTheta ph.bmax th))
          (xLoop ph (scaleTheta ph.bmax th) eps (n + 1) x mom
            (ph.grad (scaleTheta ph.bmax th) x)).x
          (xLoop ph (scaleTheta ph.bmax th) eps (n + 1) x mom
            (ph.grad (scaleTheta ph.bmax th) x)).p) := by
  intro h
  obtain ⟨r, hr⟩ : ∃ r, xStep { demoPhys with pot := fun _ _ => 0, grad := fun _ _ _ => 0 } 1
      (0 + 1) (fun _ => 2) (-1 / 2) ![1, 1] (fun _ => 0, 0, fun _ => 0) = some r :=
    Option.isSome_iff_exists.1 (by decide +kernel)
  have hv : ((xStep { demoPhys with pot := fun _ _ => 0, grad := fun _ _ _ => 0 } 1
      (0 + 1) (fun _ => 2) (-1 / 2) ![1, 1] (fun _ => 0, 0, fun _ => 0)).map fun r => r.2) =
      some 1 := by decide +kernel
  have h1 := h { demoPhys with pot := fun _ _ => 0, grad := fun _ _ _ => 0 } 1 0 (fun _ => 2)
    (-1 / 2) ![1, 1] (fun _ => 0) r hr
  rw [hr] at hv
  have h2 := h1.1 (Option.some.inj hv)
  revert h2
  decide +kernel

/-! ## C75: annealed importance weights -/

/-- **C75.** The final log weight is the initial one plus, for each temperature, the temperature
increment times the difference of the potentials at the position before that temperature. -/
theorem C75_weight_formula (V0 V1 : (ι → K) → K) (g0 g1 : (ι → K) → (ι → K)) (temp : ℕ → K)
    (eps : K) (n : ℕ) (logW : K) (x : ι → K) (ds : List (AisDraw K ι)) :
    (aisLoop V0 V1 g0 g1 temp eps n 1 (aisInit V0 V1 g0 g1 logW x) ds).logW =
      logW + ((List.range ds.length).map fun k =>
        (temp (k + 1) - temp k) *
          (V0 (aisLoop V0 V1 g0 g1 temp eps n 1 (aisInit V0 V1 g0 g1 logW x) (ds.take k)).x -
           V1 (aisLoop V0 V1 g0 g1 temp eps n 1 (aisInit V0 V1 g0 g1 logW x) (ds.take k)).x)).sum
      := by
  have key : ∀ (ds : List (AisDraw K ι)) (it : ℕ) (s : Particle K ι), s.Coherent V0 V1 g0 g1 →
      (aisLoop V0 V1 g0 g1 temp eps n (it + 1) s ds).logW = s.logW +
        ((List.range ds.length).map fun k => (temp (it + k + 1) - temp (it + k)) *
          (V0 (aisLoop V0 V1 g0 g1 temp eps n (it + 1) s (ds.take k)).x -
           V1 (aisLoop V0 V1 g0 g1 temp eps n (it + 1) s (ds.take k)).x)).sum := by
    intro ds
    induction ds with
    | nil => intro it s _; simp [aisLoop]
    | cons d ds ih =>
      intro it s h
      rw [aisLoop, ih (it + 1) _ (aisStep_coherent V0 V1 g0 g1 temp eps n (it + 1) s d h),
        aisStep_logW, List.length_cons, List.range_succ_eq_map, List.map_cons, List.sum_cons,
        List.map_map, h.1, h.2.1]
      simp only [List.take_zero, aisLoop, Nat.add_sub_cancel, Nat.add_zero, Function.comp_def,
        List.take_succ_cons, add_assoc]
      congr 3
      refine List.map_congr_left fun k _ => ?_
      rw [show 1 + (k + 1) = k + 1 + 1 by omega, show 1 + k = k + 1 by omega]
  have h := key ds 0 (aisInit V0 V1 g0 g1 logW x) ⟨rfl, rfl, rfl, rfl⟩
  simp only [Nat.zero_add] at h
  exact h

/-- **C75.** If the target is the prior shifted by a constant `c`, every run of the annealer, whatever
the draws, returns exactly that constant: the estimator has no error. -/
theorem C75_exact_for_shift (V0 V1 : (ι → K) → K) (g0 g1 : (ι → K) → (ι → K)) (eps : K) (n : ℕ)
    (logW c : K) (x : ι → K) (ds : List (AisDraw K ι)) (m : ℕ) (hm : 2 ≤ m)
    (hds : ds.length = m - 1) (hc : ∀ y, V0 y - V1 y = c) :
    (aisLoop V0 V1 g0 g1 (linspace01 m) eps n 1 (aisInit V0 V1 g0 g1 logW x) ds).logW =
      logW + c := by
  rw [C75_weight_formula]
  congr 1
  have hmap : ((List.range ds.length).map fun k =>
        ((linspace01 m (k + 1) : K) - linspace01 m k) *
          (V0 (aisLoop V0 V1 g0 g1 (linspace01 m) eps n 1 (aisInit V0 V1 g0 g1 logW x)
              (ds.take k)).x -
           V1 (aisLoop V0 V1 g0 g1 (linspace01 m) eps n 1 (aisInit V0 V1 g0 g1 logW x)
              (ds.take k)).x)) =
      (List.range ds.length).map fun k => ((linspace01 m (k + 1) : K) - linspace01 m k) * c := by
    refine List.map_congr_left fun k _ => ?_
    rw [hc]
  rw [hmap]
  have hsum : ∀ l : ℕ, ((List.range l).map fun k =>
      ((linspace01 m (k + 1) : K) - linspace01 m k) * c).sum =
      (linspace01 m l - linspace01 m 0) * c := by
    intro l
    induction l with
    | zero => simp
    | succ l ih =>
      rw [List.range_succ, List.map_append, List.sum_append, ih, List.map_singleton,
        List.sum_singleton]
      ring
  rw [hsum, hds]
  have h1 : ((m - 1 : ℕ) : K) = (m : K) - 1 := by
    rw [Nat.cast_sub (by omega), Nat.cast_one]
  have h2 : ((m : K) - 1) ≠ 0 := by
    rw [← h1]
    exact Nat.cast_ne_zero.2 (by omega)
  simp only [linspace01, h1, Nat.cast_zero, zero_div, sub_zero, div_self h2, one_mul]

example : (aisLoop (ι := Unit) (K := ℚ) (fun x => x () * x ()) (fun x => x () * x () - 3)
    (fun x => (2 : ℚ) • x) (fun x => (2 : ℚ) • x) (linspace01 3) (1 / 10) 1 1
    (aisInit (fun x => x () * x ()) (fun x => x () * x () - 3) (fun x => (2 : ℚ) • x)
      (fun x => (2 : ℚ) • x) (-2) (fun _ => 1))
    [⟨fun _ => 1, -1⟩, ⟨fun _ => 0, -1⟩]).logW = -2 + 3 :=
  C75_exact_for_shift _ _ _ _ _ _ _ 3 _ _ 3 (by decide) rfl (fun y => by ring)

/-! ## C76: the gradient of the table likelihood -/

/-- **C76 (exact behaviour).** If autograd's Jacobian is the derivative of the negative table log
likelihood, the gradient handed to the sampler is minus that derivative. -/
theorem C76_gradient_negated [DecidableEq ι] (ph : Phys ℝ ι T) (sc : Fin 2 → ℝ) (x : ι → ℝ) (tab : T) (j : ι)
    (h : HasDerivAt (fun v => ph.nlt sc (Function.update x j v) tab) (ph.nltJac sc x tab j) (x j)) :
    HasDerivAt (fun v => ph.nlt sc (Function.update x j v) tab) (-(nltGrad ph sc x tab j)) (x j) := by
  simpa [nltGrad] using h

/-- **C76 is false**: the gradient handed to the sampler is not the derivative of the value that is
handed to it. -/
theorem C76_gradient_false :
    ¬ ∀ (ph : Phys ℝ Unit ℕ) (sc : Fin 2 → ℝ) (x : Unit → ℝ) (tab : ℕ) (j : Unit),
      (∀ y, HasDerivAt (fun v => ph.nlt sc (Function.update y j v) tab)
        (ph.nltJac sc y tab j) (y j)) →
      HasDerivAt (fun v => ph.nlt sc (Function.update x j v) tab) (nltGrad ph sc x tab j) (x j) := by
  intro h
  let ph : Phys ℝ Unit ℕ :=
    { bmax := 1, pot := fun _ _ => 0, grad := fun _ _ _ => 0, nlt := fun _ x _ => x ()
      nltJac := fun _ _ _ _ => 1, obs := fun _ => 0, noiseVar := 1 }
  have hd : ∀ y : Unit → ℝ, HasDerivAt (fun v => ph.nlt 0 (Function.update y () v) 0)
      (ph.nltJac 0 y 0 ()) (y ()) := by
    intro y
    have : (fun v => ph.nlt 0 (Function.update y () v) 0) = fun v => v := by
      funext v; simp [ph]
    rw [this]
    exact hasDerivAt_id' _
  have h1 := h ph 0 (fun _ => 0) 0 () hd
  have h2 := hd (fun _ => 0)
  have h3 := h1.unique h2
  simp [nltGrad, ph] at h3
  norm_num at h3

end GeNSIT
