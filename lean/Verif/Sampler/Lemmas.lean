import Verif.Sampler.Model
import Verif.Sampler.Spec
import Mathlib.Tactic.Linarith
import Mathlib.Tactic.Ring
import Mathlib.Tactic.Module
import Mathlib.Tactic.FieldSimp
import Mathlib.Algebra.BigOperators.Group.List.Basic

set_option linter.unusedSimpArgs false
set_option linter.unusedSectionVars false

namespace GeNSIT

variable {K ι T : Type} [Field K] [LinearOrder K] [IsStrictOrderedRing K] [Fintype ι]

/-! ### The box -/

theorem inBox_of_not_outside {th : Fin 2 → K} (h : ¬ outsideBox th) : Spec.InBox th := by
  unfold outsideBox at h
  push Not at h
  obtain ⟨h1, h2⟩ := h
  rw [le_min_iff] at h1
  rw [max_lt_iff] at h2
  intro i
  fin_cases i
  · exact ⟨h1.1, h2.1⟩
  · exact ⟨h1.2, h2.2⟩

theorem outside_iff (th : Fin 2 → K) : outsideBox th ↔ ¬ Spec.InBox th := by
  constructor
  · intro h hb
    have h0 := hb 0
    have h1 := hb 1
    rcases h with h | h
    · rw [min_lt_iff] at h
      rcases h with h | h <;> linarith [h0.1, h1.1]
    · rw [ge_iff_le, le_max_iff] at h
      rcases h with h | h <;> linarith [h0.2, h1.2]
  · intro h
    by_contra hc
    exact h (inBox_of_not_outside hc)

theorem reflect_eq_iff {v b : K} (h0 : 0 ≤ b) (h2 : b < 2) :
    reflect v = b ↔ v = b ∨ v = -b ∨ v = 4 - b := by
  unfold reflect
  constructor
  · intro h
    split at h
    · right; left; linarith
    · split at h
      · right; right; linarith
      · left; exact h
  · rintro (h | h | h)
    · rw [if_neg (by linarith), if_neg (by linarith)]; exact h
    · by_cases hb : b = 0
      · rw [h, hb]; simp
      · have : 0 < b := lt_of_le_of_ne h0 (Ne.symm hb)
        rw [if_pos (by linarith)]; linarith
    · rw [if_neg (by linarith), if_pos (by linarith)]; linarith

/-! ### Leapfrog -/

/-- Kick, drift, kick on (position, momentum). -/
def kdk (eps : K) (g : (ι → K) → (ι → K)) (s : (ι → K) × (ι → K)) : (ι → K) × (ι → K) :=
  let p1 := s.2 - (1 / 2 * eps) • g s.1
  let x1 := s.1 + eps • p1
  (x1, p1 - (1 / 2 * eps) • g x1)

theorem leapStep_kdk (eps : K) (g : (ι → K) → (ι → K)) (x p : ι → K) :
    leapStep eps g (x, p, g x) =
      ((kdk eps g (x, p)).1, (kdk eps g (x, p)).2, g (kdk eps g (x, p)).1) := rfl

theorem leapStep_iter (eps : K) (g : (ι → K) → (ι → K)) (n : ℕ) (x p : ι → K) :
    (leapStep eps g)^[n] (x, p, g x) =
      (((kdk eps g)^[n] (x, p)).1, ((kdk eps g)^[n] (x, p)).2,
        g ((kdk eps g)^[n] (x, p)).1) := by
  induction n generalizing x p with
  | zero => rfl
  | succ n ih =>
    rw [Function.iterate_succ_apply, leapStep_kdk, ih, Function.iterate_succ_apply]

theorem leapfrog_eq_iter (eps : K) (g : (ι → K) → (ι → K)) (n : ℕ) (s : (ι → K) × (ι → K)) :
    leapfrog eps g n s = (kdk eps g)^[n] s := by
  unfold leapfrog
  simp only [leapStep_iter]

/-- Momentum flip. -/
def flipMom (s : (ι → K) × (ι → K)) : (ι → K) × (ι → K) := (s.1, -s.2)

theorem flipMom_flipMom (s : (ι → K) × (ι → K)) : flipMom (flipMom s) = s := by
  unfold flipMom; simp

theorem kdk_flip (eps : K) (g : (ι → K) → (ι → K)) (s : (ι → K) × (ι → K)) :
    kdk eps g (flipMom (kdk eps g s)) = flipMom s := by
  obtain ⟨x, p⟩ := s
  have hx : (kdk eps g (x, p)).1 + eps • (-(kdk eps g (x, p)).2 -
      (1 / 2 * eps) • g (kdk eps g (x, p)).1) = x := by
    simp only [kdk]
    module
  have h1 : (kdk eps g (flipMom (kdk eps g (x, p)))).1 = x := by
    simpa only [kdk, flipMom] using hx
  have h2 : (kdk eps g (flipMom (kdk eps g (x, p)))).2 = -p := by
    have : (kdk eps g (flipMom (kdk eps g (x, p)))).2 = -(kdk eps g (x, p)).2 -
        (1 / 2 * eps) • g (kdk eps g (x, p)).1 -
        (1 / 2 * eps) • g (kdk eps g (flipMom (kdk eps g (x, p)))).1 := rfl
    rw [this, h1]
    simp only [kdk]
    module
  exact Prod.ext h1 h2

theorem kdk_iter_flip (eps : K) (g : (ι → K) → (ι → K)) (n : ℕ) (s : (ι → K) × (ι → K)) :
    (kdk eps g)^[n] (flipMom ((kdk eps g)^[n] s)) = flipMom s := by
  induction n generalizing s with
  | zero => rfl
  | succ n ih =>
    rw [Function.iterate_succ_apply' (n := n) (x := s), Function.iterate_succ_apply, kdk_flip, ih]

/-! ### Steps and histories -/

theorem thetaStep_cases (ph : Phys K ι T) (walk : Fin 2 → K) (z : (Fin 2 → K) → K × K) (logU : K)
    (x : ι → K) (s : (Fin 2 → K) × Aux K ι) :
    thetaStep ph walk z logU x s = (s, 0) ∨
      (¬ outsideBox (thetaProposal s.1 walk) ∧
        thetaStep ph walk z logU x s = ((thetaProposal s.1 walk,
          { V := ph.pot (scaleTheta ph.bmax (thetaProposal s.1 walk)) x
            gradV := ph.grad (scaleTheta ph.bmax (thetaProposal s.1 walk)) x
            logZ := (z (scaleTheta ph.bmax (thetaProposal s.1 walk))).1
            sign := (z (scaleTheta ph.bmax (thetaProposal s.1 walk))).2 }), 1)) := by
  unfold thetaStep
  simp only
  split
  · left; rfl
  · next h =>
    split
    · right; exact ⟨h, rfl⟩
    · left; rfl

theorem thetaStepT_cases (ph : Phys K ι T) (walk : Fin 2 → K) (z : (Fin 2 → K) → K × K) (logU : K)
    (x : ι → K) (tab : T) (s : (Fin 2 → K) × Aux K ι × K) :
    thetaStepT ph walk z logU x tab s = (s, 0) ∨
      (¬ outsideBox (thetaProposal s.1 walk) ∧
        thetaStepT ph walk z logU x tab s = ((thetaProposal s.1 walk,
          { V := ph.pot (scaleTheta ph.bmax (thetaProposal s.1 walk)) x
            gradV := ph.grad (scaleTheta ph.bmax (thetaProposal s.1 walk)) x
            logZ := (z (scaleTheta ph.bmax (thetaProposal s.1 walk))).1
            sign := (z (scaleTheta ph.bmax (thetaProposal s.1 walk))).2 },
          ph.nlt (scaleTheta ph.bmax (thetaProposal s.1 walk)) x tab), 1)) := by
  unfold thetaStepT
  simp only
  split
  · left; rfl
  · next h =>
    split
    · right; exact ⟨h, rfl⟩
    · left; rfl

theorem xLoop_new (ph : Phys K ι T) (sc : Fin 2 → K) (eps : K) (n : ℕ) (prev mom gradV : ι → K) :
    (xLoop ph sc eps (n + 1) prev mom gradV).new =
      some (ph.pot sc (xLoop ph sc eps (n + 1) prev mom gradV).x,
        ph.grad sc (xLoop ph sc eps (n + 1) prev mom gradV).x) := by
  unfold xLoop
  rw [Function.iterate_succ_apply']
  rfl

theorem xLoopT_new (ph : Phys K ι T) (sc : Fin 2 → K) (eps : K) (n : ℕ) (tab : T) (prev : ι → K)
    (s0 : XLoop K ι) :
    ((xLoopStepT ph sc eps tab prev)^[n + 1] s0).new =
      some (ph.pot sc ((xLoopStepT ph sc eps tab prev)^[n + 1] s0).x,
        ph.grad sc ((xLoopStepT ph sc eps tab prev)^[n + 1] s0).x) := by
  rw [Function.iterate_succ_apply']
  rfl

/-- Either the attraction update keeps everything, or it returns the new position with the
potential and gradient evaluated there. -/
theorem xStep_cases (ph : Phys K ι T) (eps : K) (n : ℕ) (mom : ι → K) (logU : K) (th : Fin 2 → K)
    (s : (ι → K) × K × (ι → K)) (r : ((ι → K) × K × (ι → K)) × ℕ)
    (h : xStep ph eps n mom logU th s = some r) :
    r = (s, 0) ∨ ∃ x', r = ((x', ph.pot (scaleTheta ph.bmax th) x',
      ph.grad (scaleTheta ph.bmax th) x'), 1) := by
  cases n with
  | zero =>
    simp [xStep, xLoop] at h
    left; exact h.2.symm
  | succ n =>
    unfold xStep at h
    simp only [xLoop_new] at h
    split at h
    · right; exact ⟨_, (Option.some.inj h).symm⟩
    · left; exact (Option.some.inj h).symm

theorem xStepT_cases (ph : Phys K ι T) (eps : K) (n : ℕ) (mom : ι → K) (logU : K) (th : Fin 2 → K)
    (tab : T) (s : (ι → K) × K × (ι → K) × K) (r : ((ι → K) × K × (ι → K) × K) × ℕ)
    (h : xStepT ph eps n mom logU th tab s = some r) :
    r = (s, 0) ∨ ∃ x', r = ((x', ph.pot (scaleTheta ph.bmax th) x',
      ph.grad (scaleTheta ph.bmax th) x', ph.nlt (scaleTheta ph.bmax th) s.1 tab), 1) := by
  cases n with
  | zero =>
    simp [xStepT] at h
    left; exact h.2.symm
  | succ n =>
    unfold xStepT at h
    simp only [xLoopT_new] at h
    split at h
    · right; exact ⟨_, (Option.some.inj h).symm⟩
    · left; exact (Option.some.inj h).symm

/-! ### Annealed importance sampling -/

/-- The cached values of a particle are those at its position. -/
def Particle.Coherent (V0 V1 : (ι → K) → K) (g0 g1 : (ι → K) → (ι → K)) (s : Particle K ι) : Prop :=
  s.v0 = V0 s.x ∧ s.v1 = V1 s.x ∧ s.d0 = g0 s.x ∧ s.d1 = g1 s.x

theorem aisStep_coherent (V0 V1 : (ι → K) → K) (g0 g1 : (ι → K) → (ι → K)) (temp : ℕ → K) (eps : K)
    (n it : ℕ) (s : Particle K ι) (d : AisDraw K ι) (h : s.Coherent V0 V1 g0 g1) :
    (aisStep V0 V1 g0 g1 temp eps n it s d).Coherent V0 V1 g0 g1 := by
  unfold aisStep
  simp only
  split
  · exact ⟨rfl, rfl, rfl, rfl⟩
  · exact h

theorem aisStep_logW (V0 V1 : (ι → K) → K) (g0 g1 : (ι → K) → (ι → K)) (temp : ℕ → K) (eps : K)
    (n it : ℕ) (s : Particle K ι) (d : AisDraw K ι) :
    (aisStep V0 V1 g0 g1 temp eps n it s d).logW =
      s.logW + (temp it - temp (it - 1)) * (s.v0 - s.v1) := by
  unfold aisStep
  simp only
  split <;> rfl

end GeNSIT
