import Verif.Exec.Lemmas

/-!
# Properties of the executor, the collectors and the slots: C46 – C48
-/

set_option linter.unusedSimpArgs false
set_option linter.unusedVariables false

namespace GeNSIT

open Spec

/-! ## C46 -/

/-- At every moment of every execution, with any number of submitting threads and even when submissions raise, the accepted
but unfinished tasks number at most the bound, and no `release` ever exceeds it. -/
theorem C46_bound {n : Nat} (bound : Nat) (sequential faulty : Bool) (s : Exec n)
    (h : ExecReach bound sequential faulty (Exec.init n bound) s) :
    unfinished s ≤ inFlight s ∧ inFlight s ≤ bound ∧ s.overflow = false := by
  have hi := execInv_reach (execInv_init n bound) h
  have hc := hi.count
  rw [holds_eq] at hc
  exact ⟨unfinished_le s, by omega, hi.noOverflow⟩

/-- As long as no submission raises, permits plus tasks in flight always make up the bound. -/
theorem C46_conservation_partial {n : Nat} (bound : Nat) (sequential : Bool) (s : Exec n)
    (h : ExecReach bound sequential false (Exec.init n bound) s) : s.permits + inFlight s = bound := by
  have hi := execInv_reach (execInv_init n bound) h
  have hf := noFail_reach (by simp [Exec.init]) h
  have hc := hi.count
  rw [holds_eq] at hc
  have : failures s = 0 := by simp [failures, Finset.card_eq_zero, Finset.filter_eq_empty_iff, hf]
  omega

/-- Without failing submissions and with a positive bound no submitter stays blocked: whatever has happened so far, the
executor can always move on unless everything is done, it cannot run forever, and every way of running it to the end
completes every task. -/
theorem C46_progress_partial {n : Nat} (bound : Nat) (hb : 0 < bound) (sequential : Bool) (s : Exec n)
    (h : ExecReach bound sequential false (Exec.init n bound) s) :
    (¬ AllDone s → ∃ s', ExecStep bound sequential false s s') ∧
    (∃ s', ExecReach bound sequential false s s' ∧ AllDone s') ∧
    (∀ run : Nat → Exec n, run 0 = s → ¬ ∀ k, ExecStep bound sequential false (run k) (run (k + 1))) := by
  have hi := execInv_reach (execInv_init n bound) h
  have hf := noFail_reach (by simp [Exec.init]) h
  refine ⟨can_step sequential hb hi hf, reach_done sequential hb _ s le_rfl hi hf, ?_⟩
  intro run _ hrun
  have : ∀ k, ∑ i, rank ((run k).phase i) + k ≤ ∑ i, rank ((run 0).phase i) := by
    intro k
    induction k with
    | zero => simp
    | succ k ih => have := rank_step (hrun k); omega
  have := this (∑ i, rank ((run 0).phase i) + 1)
  omega

/-- The way to `[queued, waiting]` with bound one: a genuine intermediate state. -/
example : ExecReach 1 true false (Exec.init 2 1)
    ⟨0, Function.update (Function.update (fun _ => .waiting) 0 .holding) 0 .queued, [], false⟩ := by
  refine Relation.ReflTransGen.tail (Relation.ReflTransGen.tail .refl (ExecStep.acquire _ 0 rfl (by decide) ?_)) (ExecStep.submit _ 0 rfl)
  intro _ j hj
  exact absurd hj (by simp)

/-- The full property fails: when a submission raises after the permit was taken, the permit is never given back. With bound
one the next submitter is blocked for ever: no step is possible and it is still waiting. -/
theorem C46_leak_false : ∃ s : Exec 2, ExecReach 1 false true (Exec.init 2 1) s ∧ s.phase 1 = .waiting ∧ s.permits + inFlight s = 0 ∧
    ∀ s', ¬ ExecStep 1 false true s s' := by
  refine ⟨⟨0, Function.update (Function.update (fun _ => .waiting) 0 .holding) 0 .failed, [], false⟩, ?_, ?_, ?_, ?_⟩
  · refine Relation.ReflTransGen.tail (Relation.ReflTransGen.tail .refl (ExecStep.acquire _ 0 rfl (by decide) ?_))
      (ExecStep.submitRaises _ 0 rfl rfl)
    intro h; simp at h
  · rfl
  · decide
  · intro s' st
    have hph : ∀ i : Fin 2, (Function.update (Function.update (fun _ => TaskPhase.waiting) (0 : Fin 2) .holding) 0 .failed) i = .waiting ∨
        (Function.update (Function.update (fun _ => TaskPhase.waiting) (0 : Fin 2) .holding) 0 .failed) i = .failed := by decide
    cases st with
    | acquire i hi hp hq => simp at hp
    | submit i hi => rcases hph i with h | h <;> (simp only at hi; rw [h] at hi; simp at hi)
    | submitRaises i hf hi => rcases hph i with h | h <;> (simp only at hi; rw [h] at hi; simp at hi)
    | finishEarly i hi => rcases hph i with h | h <;> (simp only at hi; rw [h] at hi; simp at hi)
    | register i hi => rcases hph i with h | h <;> (simp only at hi; rw [h] at hi; simp at hi)
    | registerDone i hi => rcases hph i with h | h <;> (simp only at hi; rw [h] at hi; simp at hi)
    | finish i hi => rcases hph i with h | h <;> (simp only at hi; rw [h] at hi; simp at hi)
    | release i hi => rcases hph i with h | h <;> (simp only at hi; rw [h] at hi; simp at hi)

/-- A bound of zero is accepted by the constructor and blocks the first submission for ever. -/
theorem C46_zero_false (sequential faulty : Bool) (n : Nat) : ∀ s', ¬ ExecStep 0 sequential faulty (Exec.init n 0) s' := by
  intro s' st
  cases st with
  | acquire i hi hp hq => simp [Exec.init] at hp
  | submit i hi => simp [Exec.init] at hi
  | submitRaises i hf hi => simp [Exec.init] at hi
  | finishEarly i hi => simp [Exec.init] at hi
  | register i hi => simp [Exec.init] at hi
  | registerDone i hi => simp [Exec.init] at hi
  | finish i hi => simp [Exec.init] at hi
  | release i hi => simp [Exec.init] at hi

/-! ## C47 -/

/-- When the sequential collection succeeds, then for every execution of the executor that has completed all tasks the
concurrent collection returns the same results up to order. -/
theorem C47_permutation {R : Type} {n : Nat} (size : R → Nat) (task : Fin n → TaskResult R) (bound : Nat) (sequential faulty : Bool)
    (s : Exec n) (h : ExecReach bound sequential faulty (Exec.init n bound) s) (hd : AllDone s) (l : List R)
    (hl : collectSequentially size (List.ofFn task) = some l) :
    (collectConcurrently size task s.callbacks).Perm l := by
  have hi := execInv_reach (execInv_init n bound) h
  have hp : s.callbacks.Perm (List.finRange n) :=
    (List.perm_ext_iff_of_nodup hi.nodup (List.nodup_finRange n)).mpr fun i => by simp [hi.log, hd i]
  rw [collectConcurrently_eq, collectSequentially_eq size _ l hl, List.ofFn_eq_map]
  exact (hp.map task).filterMap _

/-- The results really are the nonempty ones: a sequential collection that succeeds returns them in task order. -/
theorem C47_sequential {R : Type} (size : R → Nat) (ts : List (TaskResult R)) (l : List R) (hl : collectSequentially size ts = some l) :
    l = nonemptyResults size ts := collectSequentially_eq size ts l hl

example : collectSequentially List.length [.result [1], .result [], .result [2, 3]] = some [[1], [2, 3]] := by rfl

/-- What happens to failing tasks: concurrently they are left out without any error – also those failing with an unexpected
exception – while sequentially any failure aborts the collection. -/
theorem C47_failures {R : Type} {n : Nat} (size : R → Nat) (task : Fin n → TaskResult R) (bound : Nat) (sequential faulty : Bool)
    (s : Exec n) (h : ExecReach bound sequential faulty (Exec.init n bound) s) (hd : AllDone s) :
    (collectConcurrently size task s.callbacks).Perm (nonemptyResults size (List.ofFn task)) ∧
    ((∃ i, ∀ r, task i ≠ .result r) → collectSequentially size (List.ofFn task) = none) := by
  have hi := execInv_reach (execInv_init n bound) h
  have hp : s.callbacks.Perm (List.finRange n) :=
    (List.perm_ext_iff_of_nodup hi.nodup (List.nodup_finRange n)).mpr fun i => by simp [hi.log, hd i]
  refine ⟨?_, ?_⟩
  · rw [collectConcurrently_eq, List.ofFn_eq_map]
    exact (hp.map task).filterMap _
  · rintro ⟨i, hi'⟩
    have key : ∀ ts : List (TaskResult R), (∃ t ∈ ts, ∀ r, t ≠ .result r) → collectSequentially size ts = none := by
      intro ts
      induction ts with
      | nil => simp
      | cons t ts ih =>
        rintro ⟨t', ht', hn⟩
        cases t with
        | skipped => rfl
        | error => rfl
        | result r =>
          rcases List.mem_cons.mp ht' with rfl | ht'
          · exact absurd rfl (hn r)
          · simp [collectSequentially, ih ⟨t', ht', hn⟩]
    exact key _ ⟨task i, by simp [List.mem_ofFn], hi'⟩

/-- Complete executions exist, whatever the number of tasks (from `C46_progress_partial`). -/
example (n bound : Nat) (hb : 0 < bound) : ∃ s : Exec n, ExecReach bound true false (Exec.init n bound) s ∧ AllDone s := by
  obtain ⟨s, h, hd⟩ := (C46_progress_partial bound hb true (Exec.init n bound) .refl).2.1
  exact ⟨s, h, hd⟩

/-! ## C48 -/

/-- `position_index` returns the first free slot when there is one, and otherwise the number of slots. -/
theorem C48_first_free (a : List Bool) :
    (false ∈ a → a[positionIndex a]? = some false) ∧ (false ∉ a → positionIndex a = a.length) ∧
    (∀ k, k < positionIndex a → a[k]? = some true) := positionIndex_spec a

example : positionIndex [true, true, false, false] = 2 := by decide

/-- When looking up and marking are not interleaved with other jobs and a slot is free at every claim, two running jobs never
have the same slot, and every running or crashed job's slot stays marked. -/
theorem C48_serial_partial (n : Nat) (s : Slots) (h : SerialReach (Slots.init n) s) :
    SlotsDistinct s ∧ ∀ j p, (s.job j = .running p ∨ s.job j = .crashed p) → s.active[p]? = some true := by
  have hinv : SlotInv s := by
    induction h with
    | refl => refine ⟨?_, ?_, ?_⟩ <;> simp [Slots.init, SlotsDistinct]
    | tail _ st ih => exact slotInv_step ih st
  exact ⟨hinv.distinct, hinv.marked⟩

/-- Two jobs running in different slots are reachable. -/
example : ∃ s, SerialReach (Slots.init 2) s ∧ s.job 0 = .running 0 ∧ s.job 1 = .running 1 :=
  ⟨_, Relation.ReflTransGen.tail (Relation.ReflTransGen.tail .refl (SerialStep.claim _ 0 rfl (by decide)))
    (SerialStep.claim _ 1 rfl (by decide)), rfl, rfl⟩

/-- The property fails for the protocol as written: two jobs may look up the same free slot before either marks it. -/
theorem C48_race_false : ∃ s, SlotReach (Slots.init 2) s ∧ s.job 0 = .running 0 ∧ s.job 1 = .running 0 :=
  ⟨_, Relation.ReflTransGen.tail (Relation.ReflTransGen.tail (Relation.ReflTransGen.tail (Relation.ReflTransGen.tail .refl
    (SlotStep.look _ 0 rfl)) (SlotStep.look _ 1 rfl)) (SlotStep.mark _ 0 0 rfl (by decide))) (SlotStep.mark _ 1 0 rfl (by decide)),
    rfl, rfl⟩

/-- It also fails without any interleaving once every slot is taken: the next job silently takes position 0. -/
theorem C48_full_false : ∃ s, SlotReach (Slots.init 1) s ∧ s.job 0 = .running 0 ∧ s.job 1 = .running 0 :=
  ⟨_, Relation.ReflTransGen.tail (Relation.ReflTransGen.tail (Relation.ReflTransGen.tail (Relation.ReflTransGen.tail .refl
    (SlotStep.look _ 0 rfl)) (SlotStep.mark _ 0 0 rfl (by decide))) (SlotStep.look _ 1 rfl)) (SlotStep.markRaises _ 1 1 rfl (by decide)),
    rfl, rfl⟩

end GeNSIT
