import Verif.Exec.Spec
import Mathlib.Algebra.Order.BigOperators.Group.Finset
import Mathlib.Algebra.BigOperators.Group.Finset.Piecewise
import Mathlib.Tactic.Ring
import Mathlib.Order.WellFounded

/-!
# Helper lemmas for the executor and the slots
-/

set_option linter.unusedSimpArgs false
set_option linter.unusedVariables false

namespace GeNSIT

open Spec

theorem sum_update {n : Nat} (w : TaskPhase → Nat) (f : Fin n → TaskPhase) (i : Fin n) (p : TaskPhase) :
    (∑ j, w (Function.update f i p j)) + w (f i) = (∑ j, w (f j)) + w p := by
  have h1 := Finset.add_sum_erase Finset.univ (fun j => w (Function.update f i p j)) (Finset.mem_univ i)
  have h2 := Finset.add_sum_erase Finset.univ (fun j => w (f j)) (Finset.mem_univ i)
  have h3 : ∑ j ∈ Finset.univ.erase i, w (Function.update f i p j) = ∑ j ∈ Finset.univ.erase i, w (f j) := by
    apply Finset.sum_congr rfl
    intro j hj
    rw [Function.update_of_ne (Finset.ne_of_mem_erase hj)]
  simp only [Function.update_self] at h1
  omega

/-- One for phases that have taken a permit and not given it back. -/
def holds : TaskPhase → Nat
  | .waiting | .released => 0
  | _ => 1

theorem holds_waiting : holds .waiting = 0 := rfl
theorem holds_holding : holds .holding = 1 := rfl
theorem holds_failed : holds .failed = 1 := rfl
theorem holds_queued : holds .queued = 1 := rfl
theorem holds_queuedDone : holds .queuedDone = 1 := rfl
theorem holds_watched : holds .watched = 1 := rfl
theorem holds_finished : holds .finished = 1 := rfl
theorem holds_released : holds .released = 0 := rfl

/-- Steps a task still has to make. -/
def rank : TaskPhase → Nat
  | .waiting => 5
  | .holding => 4
  | .queued => 3
  | .queuedDone => 2
  | .watched => 2
  | .finished => 1
  | _ => 0

theorem rank_waiting : rank .waiting = 5 := rfl
theorem rank_holding : rank .holding = 4 := rfl
theorem rank_failed : rank .failed = 0 := rfl
theorem rank_queued : rank .queued = 3 := rfl
theorem rank_queuedDone : rank .queuedDone = 2 := rfl
theorem rank_watched : rank .watched = 2 := rfl
theorem rank_finished : rank .finished = 1 := rfl
theorem rank_released : rank .released = 0 := rfl

structure ExecInv {n : Nat} (bound : Nat) (s : Exec n) : Prop where
  count : s.permits + ∑ i, holds (s.phase i) = bound
  noOverflow : s.overflow = false
  nodup : s.callbacks.Nodup
  log : ∀ i, i ∈ s.callbacks ↔ s.phase i = .released

theorem execInv_init (n bound : Nat) : ExecInv bound (Exec.init n bound) := by
  constructor <;> simp [Exec.init, holds]

theorem log_move {n : Nat} {bound : Nat} {s : Exec n} (h : ExecInv bound s) (i : Fin n) (p : TaskPhase) (hp : p ≠ .released)
    (hs : s.phase i ≠ .released) (k : Fin n) : k ∈ s.callbacks ↔ Function.update s.phase i p k = .released := by
  rw [h.log]
  by_cases hk : k = i
  · subst hk; simp [hp, hs]
  · simp [Function.update_of_ne hk]

theorem execInv_step {n bound : Nat} {sq fl : Bool} {s s' : Exec n} (h : ExecInv bound s) (st : ExecStep bound sq fl s s') :
    ExecInv bound s' := by
  have hcount := h.count
  cases st with
  | acquire i hi hp hq =>
    have hu := sum_update holds s.phase i .holding
    refine ⟨?_, h.noOverflow, h.nodup, log_move h i _ (by simp) (by simp [hi])⟩
    simp only [Exec.move, hi, holds_waiting, holds_holding, holds_failed, holds_queued, holds_queuedDone, holds_watched, holds_finished, holds_released] at hu ⊢
    omega
  | submit i hi =>
    have hu := sum_update holds s.phase i .queued
    refine ⟨?_, h.noOverflow, h.nodup, log_move h i _ (by simp) (by simp [hi])⟩
    simp only [Exec.move, hi, holds_waiting, holds_holding, holds_failed, holds_queued, holds_queuedDone, holds_watched, holds_finished, holds_released] at hu ⊢
    omega
  | submitRaises i _ hi =>
    have hu := sum_update holds s.phase i .failed
    refine ⟨?_, h.noOverflow, h.nodup, log_move h i _ (by simp) (by simp [hi])⟩
    simp only [Exec.move, hi, holds_waiting, holds_holding, holds_failed, holds_queued, holds_queuedDone, holds_watched, holds_finished, holds_released] at hu ⊢
    omega
  | finishEarly i hi =>
    have hu := sum_update holds s.phase i .queuedDone
    refine ⟨?_, h.noOverflow, h.nodup, log_move h i _ (by simp) (by simp [hi])⟩
    simp only [Exec.move, hi, holds_waiting, holds_holding, holds_failed, holds_queued, holds_queuedDone, holds_watched, holds_finished, holds_released] at hu ⊢
    omega
  | register i hi =>
    have hu := sum_update holds s.phase i .watched
    refine ⟨?_, h.noOverflow, h.nodup, log_move h i _ (by simp) (by simp [hi])⟩
    simp only [Exec.move, hi, holds_waiting, holds_holding, holds_failed, holds_queued, holds_queuedDone, holds_watched, holds_finished, holds_released] at hu ⊢
    omega
  | registerDone i hi =>
    have hu := sum_update holds s.phase i .finished
    refine ⟨?_, h.noOverflow, h.nodup, log_move h i _ (by simp) (by simp [hi])⟩
    simp only [Exec.move, hi, holds_waiting, holds_holding, holds_failed, holds_queued, holds_queuedDone, holds_watched, holds_finished, holds_released] at hu ⊢
    omega
  | finish i hi =>
    have hu := sum_update holds s.phase i .finished
    refine ⟨?_, h.noOverflow, h.nodup, log_move h i _ (by simp) (by simp [hi])⟩
    simp only [Exec.move, hi, holds_waiting, holds_holding, holds_failed, holds_queued, holds_queuedDone, holds_watched, holds_finished, holds_released] at hu ⊢
    omega
  | release i hi =>
    have hu := sum_update holds s.phase i .released
    simp only [hi, holds_waiting, holds_holding, holds_failed, holds_queued, holds_queuedDone, holds_watched, holds_finished, holds_released] at hu
    have hlt : s.permits < bound := by omega
    refine ⟨?_, ?_, ?_, ?_⟩
    · simp only [Exec.move, if_pos hlt]
      omega
    · simp [Exec.move, h.noOverflow, hlt]
    · simp only [List.nodup_append, h.nodup, true_and, List.nodup_singleton, List.mem_singleton]
      rintro a ha b rfl rfl
      rw [h.log, hi] at ha
      simp at ha
    · intro k
      simp only [Exec.move, List.mem_append, List.mem_singleton, h.log]
      by_cases hk : k = i
      · subst hk; simp
      · simp [Function.update_of_ne hk, hk]

theorem execInv_reach {n bound : Nat} {sq fl : Bool} {s s' : Exec n} (h : ExecInv bound s) (r : ExecReach bound sq fl s s') :
    ExecInv bound s' := by
  induction r with
  | refl => exact h
  | tail _ st ih => exact execInv_step ih st

theorem holds_eq {n : Nat} (s : Exec n) : ∑ i, holds (s.phase i) = inFlight s + failures s := by
  unfold inFlight failures
  rw [Finset.card_filter, Finset.card_filter, ← Finset.sum_add_distrib]
  apply Finset.sum_congr rfl
  intro i _
  cases s.phase i <;> simp [holds]

theorem unfinished_le {n : Nat} (s : Exec n) : unfinished s ≤ inFlight s := by
  unfold unfinished inFlight
  apply Finset.card_le_card
  intro i hi
  simp only [Finset.mem_filter, Finset.mem_univ, true_and] at hi ⊢
  rcases hi with h | h <;> simp [h]

/-- Every step lowers the total rank. -/
theorem rank_step {n bound : Nat} {sq fl : Bool} {s s' : Exec n} (st : ExecStep bound sq fl s s') :
    ∑ i, rank (s'.phase i) < ∑ i, rank (s.phase i) := by
  cases st with
  | acquire i hi hp hq => have hu := sum_update rank s.phase i .holding; simp only [Exec.move, hi, rank_waiting, rank_holding, rank_failed, rank_queued, rank_queuedDone, rank_watched, rank_finished, rank_released] at hu ⊢; omega
  | submit i hi => have hu := sum_update rank s.phase i .queued; simp only [Exec.move, hi, rank_waiting, rank_holding, rank_failed, rank_queued, rank_queuedDone, rank_watched, rank_finished, rank_released] at hu ⊢; omega
  | submitRaises i _ hi => have hu := sum_update rank s.phase i .failed; simp only [Exec.move, hi, rank_waiting, rank_holding, rank_failed, rank_queued, rank_queuedDone, rank_watched, rank_finished, rank_released] at hu ⊢; omega
  | finishEarly i hi => have hu := sum_update rank s.phase i .queuedDone; simp only [Exec.move, hi, rank_waiting, rank_holding, rank_failed, rank_queued, rank_queuedDone, rank_watched, rank_finished, rank_released] at hu ⊢; omega
  | register i hi => have hu := sum_update rank s.phase i .watched; simp only [Exec.move, hi, rank_waiting, rank_holding, rank_failed, rank_queued, rank_queuedDone, rank_watched, rank_finished, rank_released] at hu ⊢; omega
  | registerDone i hi => have hu := sum_update rank s.phase i .finished; simp only [Exec.move, hi, rank_waiting, rank_holding, rank_failed, rank_queued, rank_queuedDone, rank_watched, rank_finished, rank_released] at hu ⊢; omega
  | finish i hi => have hu := sum_update rank s.phase i .finished; simp only [Exec.move, hi, rank_waiting, rank_holding, rank_failed, rank_queued, rank_queuedDone, rank_watched, rank_finished, rank_released] at hu ⊢; omega
  | release i hi => have hu := sum_update rank s.phase i .released; simp only [Exec.move, hi, rank_waiting, rank_holding, rank_failed, rank_queued, rank_queuedDone, rank_watched, rank_finished, rank_released] at hu ⊢; omega

theorem noFail_step {n bound : Nat} {sq : Bool} {s s' : Exec n} (h : ∀ i, s.phase i ≠ .failed) (st : ExecStep bound sq false s s') :
    ∀ i, s'.phase i ≠ .failed := by
  have key : ∀ (i : Fin n) (p : TaskPhase), p ≠ .failed → ∀ k, Function.update s.phase i p k ≠ .failed := by
    intro i p hp k
    by_cases hk : k = i
    · subst hk; simpa using hp
    · rw [Function.update_of_ne hk]; exact h k
  cases st with
  | acquire i hi hp hq => exact key i _ (by simp)
  | submit i hi => exact key i _ (by simp)
  | submitRaises i hf hi => simp at hf
  | finishEarly i hi => exact key i _ (by simp)
  | register i hi => exact key i _ (by simp)
  | registerDone i hi => exact key i _ (by simp)
  | finish i hi => exact key i _ (by simp)
  | release i hi => exact key i _ (by simp)

theorem noFail_reach {n bound : Nat} {sq : Bool} {s s' : Exec n} (h : ∀ i, s.phase i ≠ .failed) (r : ExecReach bound sq false s s') :
    ∀ i, s'.phase i ≠ .failed := by
  induction r with
  | refl => exact h
  | tail _ st ih => exact noFail_step ih st

/-- Without failures and with a positive bound, an unfinished executor can always make a step. -/
theorem can_step {n bound : Nat} (sq : Bool) {s : Exec n} (hb : 0 < bound) (h : ExecInv bound s) (hf : ∀ i, s.phase i ≠ .failed)
    (hnd : ¬ AllDone s) : ∃ s', ExecStep bound sq false s s' := by
  by_contra hno
  push Not at hno
  have h1 : ∀ i, s.phase i = .waiting ∨ s.phase i = .released := by
    intro i
    cases hi : s.phase i with
    | waiting => exact Or.inl rfl
    | released => exact Or.inr rfl
    | failed => exact absurd hi (hf i)
    | holding => exact absurd (ExecStep.submit s i hi) (hno _)
    | queued => exact absurd (ExecStep.register s i hi) (hno _)
    | queuedDone => exact absurd (ExecStep.registerDone s i hi) (hno _)
    | watched => exact absurd (ExecStep.finish s i hi) (hno _)
    | finished => exact absurd (ExecStep.release s i hi) (hno _)
  have h2 : ∑ i, holds (s.phase i) = 0 := by
    apply Finset.sum_eq_zero
    intro i _
    rcases h1 i with h | h <;> simp [h, holds]
  have hp : 0 < s.permits := by have := h.count; omega
  have hw : ∃ i, s.phase i = .waiting := by
    by_contra hh
    push Not at hh
    exact hnd fun i => (h1 i).resolve_left (hh i)
  obtain ⟨i, hi⟩ := hw
  -- the first waiting submission
  obtain ⟨i₀, hi₀, hmin⟩ : ∃ i₀, s.phase i₀ = .waiting ∧ ∀ j, j < i₀ → s.phase j ≠ .waiting := by
    have hwf := (inferInstance : WellFoundedLT (Fin n)).wf
    obtain ⟨m, hm, hmin⟩ := hwf.has_min {k | s.phase k = .waiting} ⟨i, hi⟩
    exact ⟨m, hm, fun j hj hjw => hmin j hjw hj⟩
  refine hno _ (ExecStep.acquire s i₀ hi₀ hp ?_)
  intro _ j hj
  rw [(h1 j).resolve_left (hmin j hj)]
  rfl

theorem reach_done {n bound : Nat} (sq : Bool) (hb : 0 < bound) (N : Nat) : ∀ s : Exec n, ∑ i, rank (s.phase i) ≤ N →
    ExecInv bound s → (∀ i, s.phase i ≠ .failed) → ∃ s', ExecReach bound sq false s s' ∧ AllDone s' := by
  induction N with
  | zero =>
    intro s hN h hf
    by_cases hd : AllDone s
    · exact ⟨s, .refl, hd⟩
    · obtain ⟨s', st⟩ := can_step sq hb h hf hd
      have := rank_step st
      omega
  | succ N ih =>
    intro s hN h hf
    by_cases hd : AllDone s
    · exact ⟨s, .refl, hd⟩
    · obtain ⟨s', st⟩ := can_step sq hb h hf hd
      have hr := rank_step st
      obtain ⟨s'', r, hd'⟩ := ih s' (by omega) (execInv_step h st) (noFail_step hf st)
      exact ⟨s'', Relation.ReflTransGen.head st r, hd'⟩

/-! ## Collectors -/

theorem collectSequentially_eq {R : Type} (size : R → Nat) (ts : List (TaskResult R)) (l : List R)
    (h : collectSequentially size ts = some l) : l = nonemptyResults size ts := by
  induction ts generalizing l with
  | nil => simp only [collectSequentially, Option.some.injEq] at h; simp [nonemptyResults, ← h]
  | cons t ts ih =>
    cases t with
    | result r =>
      simp only [collectSequentially, Option.map_eq_some_iff] at h
      obtain ⟨l', h1, h2⟩ := h
      have := ih l' h1
      subst this
      rw [← h2]
      by_cases hr : 0 < size r <;> simp [nonemptyResults, hr]
    | skipped => simp [collectSequentially] at h
    | error => simp [collectSequentially] at h

theorem collectConcurrently_eq {R : Type} {n : Nat} (size : R → Nat) (task : Fin n → TaskResult R) (order : List (Fin n)) :
    collectConcurrently size task order = nonemptyResults size (order.map task) := by
  have key : ∀ (order : List (Fin n)) (acc : List R),
      order.foldl (fun acc i => collectCallback size acc (task i)) acc = acc ++ nonemptyResults size (order.map task) := by
    intro order
    induction order with
    | nil => intro acc; simp [nonemptyResults]
    | cons i order ih =>
      intro acc
      rw [List.foldl_cons, ih]
      cases ht : task i with
      | result r => by_cases hr : 0 < size r <;> simp [collectCallback, nonemptyResults, ht, hr]
      | skipped => simp [collectCallback, nonemptyResults, ht]
      | error => simp [collectCallback, nonemptyResults, ht]
  simpa [collectConcurrently] using key order []

/-! ## Slots -/

theorem positionIndex_spec (a : List Bool) :
    (false ∈ a → a[positionIndex a]? = some false) ∧ (false ∉ a → positionIndex a = a.length) ∧
    (∀ k, k < positionIndex a → a[k]? = some true) := by
  induction a with
  | nil => simp [positionIndex]
  | cons b a ih =>
    cases b with
    | false => simp [positionIndex]
    | true =>
      simp only [positionIndex]
      obtain ⟨h1, h2, h3⟩ := ih
      refine ⟨?_, ?_, ?_⟩
      · intro h; simpa using h1 (by simpa using h)
      · intro h; simpa using h2 (by simpa using h)
      · intro k hk
        cases k with
        | zero => simp
        | succ k => simp at hk ⊢; exact h3 k hk

structure SlotInv (s : Slots) : Prop where
  distinct : SlotsDistinct s
  marked : ∀ j p, (s.job j = .running p ∨ s.job j = .crashed p) → s.active[p]? = some true
  apart : ∀ j k p, s.job j = .running p → s.job k = .crashed p → False

theorem slotInv_step {s s' : Slots} (h : SlotInv s) (st : SerialStep s s') : SlotInv s' := by
  cases st with
  | claim j hj hfree =>
    obtain ⟨h1, _, _⟩ := positionIndex_spec s.active
    have hp := h1 hfree
    have hlt : positionIndex s.active < s.active.length := by
      obtain ⟨h, _⟩ := List.getElem?_eq_some_iff.mp hp; exact h
    have hne : ∀ k q, (s.job k = .running q ∨ s.job k = .crashed q) → q ≠ positionIndex s.active := by
      intro k q hk hq
      have := h.marked k q hk
      rw [hq, hp] at this; simp at this
    refine ⟨?_, ?_, ?_⟩
    · intro a b p ha hb
      simp only [Slots.setJob] at ha hb
      split at ha <;> split at hb
      · rename_i e1 e2; rw [e1, e2]
      · rename_i e1 e2
        simp only [JobPhase.running.injEq] at ha
        exact absurd ha.symm (hne b p (Or.inl hb))
      · rename_i e1 e2
        simp only [JobPhase.running.injEq] at hb
        exact absurd hb.symm (hne a p (Or.inl ha))
      · exact h.distinct a b p ha hb
    · intro a p ha
      simp only [Slots.setJob] at ha ⊢
      split at ha
      · simp only [JobPhase.running.injEq, reduceCtorEq, or_false] at ha
        rw [← ha]
        simp [List.getElem?_set, hlt]
      · have := hne a p ha
        rw [List.getElem?_set_ne (Ne.symm this)]
        exact h.marked a p ha
    · intro a b p ha hb
      simp only [Slots.setJob] at ha hb
      split at hb
      · simp at hb
      · split at ha
        · simp only [JobPhase.running.injEq] at ha
          exact hne b p (Or.inr hb) ha.symm
        · exact h.apart a b p ha hb
  | finish j q hj =>
    refine ⟨?_, ?_, ?_⟩
    · intro a b p ha hb
      simp only [Slots.setJob] at ha hb
      split at ha
      · simp at ha
      · split at hb
        · simp at hb
        · exact h.distinct a b p ha hb
    · intro a p ha
      simp only [Slots.setJob] at ha ⊢
      split at ha
      · simp at ha
      · rename_i hne
        have hpq : q ≠ p := by
          rintro rfl
          rcases ha with ha | ha
          · exact hne (h.distinct a j q ha hj)
          · exact h.apart j a q hj ha
        rw [List.getElem?_set_ne hpq]
        exact h.marked a p ha
    · intro a b p ha hb
      simp only [Slots.setJob] at ha hb
      split at ha
      · simp at ha
      · split at hb
        · simp at hb
        · exact h.apart a b p ha hb
  | crash j q hj =>
    refine ⟨?_, ?_, ?_⟩
    · intro a b p ha hb
      simp only [Slots.setJob] at ha hb
      split at ha
      · simp at ha
      · split at hb
        · simp at hb
        · exact h.distinct a b p ha hb
    · intro a p ha
      simp only [Slots.setJob] at ha ⊢
      split at ha
      · simp only [reduceCtorEq, JobPhase.crashed.injEq, false_or] at ha
        rw [← ha]; exact h.marked j q (Or.inl hj)
      · exact h.marked a p ha
    · intro a b p ha hb
      simp only [Slots.setJob] at ha hb
      split at ha
      · simp at ha
      · split at hb
        · rename_i e1 e2
          simp only [JobPhase.crashed.injEq] at hb
          rw [← hb] at ha
          exact e1 (h.distinct a j q ha hj)
        · exact h.apart a b p ha hb

end GeNSIT
