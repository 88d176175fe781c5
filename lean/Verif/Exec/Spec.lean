import Verif.Exec.Model

/-!
# Specification vocabulary for the executor and the slots
-/

namespace GeNSIT.Spec

open GeNSIT

/-- Number of tasks accepted by the executor and not finished. -/
def unfinished {n : Nat} (s : Exec n) : Nat :=
  (Finset.univ.filter fun i => s.phase i = .queued ∨ s.phase i = .watched).card

/-- Number of submissions past `acquire` whose callback has not run (running, finished but not called back, being handed
over), excluding those whose submission raised. -/
def inFlight {n : Nat} (s : Exec n) : Nat :=
  (Finset.univ.filter fun i => s.phase i ≠ .waiting ∧ s.phase i ≠ .released ∧ s.phase i ≠ .failed).card

/-- Number of submissions that raised. -/
def failures {n : Nat} (s : Exec n) : Nat := (Finset.univ.filter fun i => s.phase i = .failed).card

/-- Every submission has completed and its callback has run. -/
def AllDone {n : Nat} (s : Exec n) : Prop := ∀ i, s.phase i = .released

/-- The nonempty results of all tasks, in task order. -/
def nonemptyResults {R : Type} (size : R → Nat) (ts : List (TaskResult R)) : List R :=
  ts.filterMap fun t => match t with
    | .result r => if 0 < size r then some r else none
    | _ => none

/-- No two running jobs have the same slot. -/
def SlotsDistinct (s : Slots) : Prop := ∀ j k p, s.job j = .running p → s.job k = .running p → j = k

end GeNSIT.Spec
