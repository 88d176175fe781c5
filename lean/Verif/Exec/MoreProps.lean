import Verif.Exec.Props

/-!
# More about the executor and the slots: order of submission (C46), crashed jobs (C48)
-/

set_option linter.unusedSimpArgs false
set_option linter.unusedVariables false

namespace GeNSIT

open Spec

theorem order_step {n bound : Nat} {fl : Bool} {s s' : Exec n} (st : ExecStep bound true fl s s')
    (h : ∀ i j, i < j → s.phase j ≠ .waiting → (s.phase i).pastSubmit = true) :
    ∀ i j, i < j → s'.phase j ≠ .waiting → (s'.phase i).pastSubmit = true := by
  have upd : ∀ (k : Fin n) (p : TaskPhase), s.phase k ≠ .waiting → ((s.phase k).pastSubmit = true → p.pastSubmit = true) →
      ∀ i j, i < j → Function.update s.phase k p j ≠ .waiting → (Function.update s.phase k p i).pastSubmit = true := by
    intro k p hk hp i j hij hj
    have hj' : s.phase j ≠ .waiting := by
      by_cases hjk : j = k
      · subst hjk; exact hk
      · rwa [Function.update_of_ne hjk] at hj
    have := h i j hij hj'
    by_cases hik : i = k
    · subst hik; rw [Function.update_self]; exact hp this
    · rwa [Function.update_of_ne hik]
  cases st with
  | acquire k hk hp hseq =>
    intro i j hij hj
    simp only [Exec.move] at hj ⊢
    have hik : i ≠ k ∨ i = k := ne_or_eq i k
    by_cases hjk : j = k
    · subst hjk
      rw [Function.update_of_ne (ne_of_lt hij)]
      exact hseq rfl i hij
    · rw [Function.update_of_ne hjk] at hj
      have := h i j hij hj
      by_cases hik : i = k
      · subst hik; rw [hk] at this; cases this
      · rwa [Function.update_of_ne hik]
  | submit k hk => exact upd k _ (by rw [hk]; decide) (by rw [hk]; decide)
  | submitRaises k hf hk => exact upd k _ (by rw [hk]; decide) (by rw [hk]; decide)
  | finishEarly k hk => exact upd k _ (by rw [hk]; decide) (by rw [hk]; decide)
  | register k hk => exact upd k _ (by rw [hk]; decide) (by rw [hk]; decide)
  | registerDone k hk => exact upd k _ (by rw [hk]; decide) (by rw [hk]; decide)
  | finish k hk => exact upd k _ (by rw [hk]; decide) (by rw [hk]; decide)
  | release k hk => exact upd k _ (by rw [hk]; decide) (by rw [hk]; decide)

/-- **C46.**  When one loop submits the tasks, they are handed over in order: at every moment, once a task has been taken up,
every earlier task has been handed over completely - it is running with its callback registered, finished, or its
submission raised. -/
theorem C46_order {n : Nat} (bound : Nat) (faulty : Bool) (s : Exec n)
    (h : ExecReach bound true faulty (Exec.init n bound) s) (i j : Fin n) (hij : i < j) (hj : s.phase j ≠ .waiting) :
    s.phase i = .watched ∨ s.phase i = .finished ∨ s.phase i = .released ∨ s.phase i = .failed := by
  have key : ∀ i j, i < j → s.phase j ≠ .waiting → (s.phase i).pastSubmit = true := by
    clear hj hij i j
    induction h with
    | refl => intro i j _ hj; simp [Exec.init] at hj
    | tail _ st ih => exact order_step st ih
  have := key i j hij hj
  revert this
  cases s.phase i <;> simp [TaskPhase.pastSubmit]

/-- A state in which the second task has been taken up. -/
example : ∃ s : Exec 2, ExecReach 2 true false (Exec.init 2 2) s ∧ s.phase 1 = .holding := by
  refine ⟨_, Relation.ReflTransGen.tail (Relation.ReflTransGen.tail (Relation.ReflTransGen.tail (Relation.ReflTransGen.tail .refl
    (ExecStep.acquire _ 0 rfl (by decide) ?_)) (ExecStep.submit _ 0 rfl)) (ExecStep.register _ 0 rfl))
    (ExecStep.acquire _ 1 rfl (by decide) ?_), rfl⟩
  · intro _ j hj; exact absurd hj (by simp)
  · intro _ j hj
    have : j = 0 := by omega
    subst this; rfl

/-- With several submitting threads the order is not kept: the second task may be taken up first. -/
example : ∃ s : Exec 2, ExecReach 2 false false (Exec.init 2 2) s ∧ s.phase 1 = .holding ∧ s.phase 0 = .waiting :=
  ⟨_, Relation.ReflTransGen.tail .refl (ExecStep.acquire _ 1 rfl (by decide) (by simp)), rfl, rfl⟩

/-- **C48 is false after a crash**: a job that raised leaves its slot marked for ever.  Here the only job has crashed, no job is
running, and yet no slot is free; whatever happens afterwards, the slot can only be cleared by another job finishing in it. -/
theorem C48_crash_leaks_false : ∃ s, SlotReach (Slots.init 1) s ∧ (∀ j p, s.job j ≠ .running p) ∧ false ∉ s.active ∧
    ∀ s', SlotStep s s' → false ∉ s'.active := by
  refine ⟨_, Relation.ReflTransGen.tail (Relation.ReflTransGen.tail (Relation.ReflTransGen.tail .refl (SlotStep.look _ 0 rfl))
    (SlotStep.mark _ 0 0 rfl (by decide))) (SlotStep.crash _ 0 0 rfl), ?_, by decide, ?_⟩
  · intro j p
    simp only [Slots.setJob, Slots.init]
    by_cases hj : j = 0 <;> simp [hj]
  · intro s' st
    cases st with
    | look j h => simp [Slots.setJob, Slots.init, positionIndex]
    | mark j p h hp => simp only [Slots.setJob, Slots.init] at h; by_cases hj : j = 0 <;> simp [hj] at h
    | markRaises j p h hp => simp only [Slots.setJob, Slots.init] at h; by_cases hj : j = 0 <;> simp [hj] at h
    | finish j p h => simp only [Slots.setJob, Slots.init] at h; by_cases hj : j = 0 <;> simp [hj] at h
    | crash j p h => simp only [Slots.setJob, Slots.init] at h; by_cases hj : j = 0 <;> simp [hj] at h

end GeNSIT
