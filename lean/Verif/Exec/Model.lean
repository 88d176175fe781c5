import Mathlib.Logic.Relation
import Mathlib.Data.Fintype.Basic
import Mathlib.Data.Fintype.BigOperators
import Mathlib.Algebra.BigOperators.Group.Finset.Basic
import Mathlib.Data.List.OfFn
import Mathlib.Data.List.FinRange

/-!
# Model of the bounded executor, the concurrent collectors and the progress-bar slots

Threads and worker processes are interleaved step by step; every step is one atomic action of one of them.
-/

namespace GeNSIT

/-! ## The bounded executor -/

/-- Where a submission is in `BoundedQueuePoolExecutor.submit` (`gensit/utils/multiprocessor.py:12-16`) and afterwards. -/
inductive TaskPhase where
  /-- In `self.semaphore.acquire()`, or not yet there. -/
  | waiting
  /-- The permit is taken; `super().submit` is being called. -/
  | holding
  /-- `super().submit` raised (executor shut down, broken pool, …): the exception leaves `submit`. -/
  | failed
  /-- The future exists and is running, `add_done_callback` has not been called yet. -/
  | queued
  /-- The future is done, `add_done_callback` has not been called yet. -/
  | queuedDone
  /-- The callbacks are registered, the task is unfinished. -/
  | watched
  /-- The task is finished, the callback `release` is about to run. -/
  | finished
  /-- The callbacks have run. -/
  | released
  deriving DecidableEq

/-- The executor with `n` submissions: the semaphore's counter, the phase of every submission, the order in which the
callbacks ran, and whether a `release` above the bound raised `ValueError` (`multiprocessing.BoundedSemaphore`). -/
structure Exec (n : Nat) where
  permits : Nat
  phase : Fin n → TaskPhase
  callbacks : List (Fin n)
  overflow : Bool

/-- `BoundedQueueProcessPoolExecutor(max_waiting_tasks = bound)` (`multiprocessor.py:18-25`) before the first submission;
`bound` is `max_workers` when no value is given. -/
def Exec.init (n bound : Nat) : Exec n := ⟨bound, fun _ => .waiting, [], false⟩

/-- Submission `i` moves to phase `p`. -/
def Exec.move {n : Nat} (s : Exec n) (i : Fin n) (p : TaskPhase) : Exec n := { s with phase := Function.update s.phase i p }

/-- The submitting loop has left `submit` for this task (`outputs.py:1377-1388`, `experiments.py:3848-3857`). -/
def TaskPhase.pastSubmit : TaskPhase → Bool
  | .watched | .finished | .released | .failed => true
  | _ => false

/-- One atomic step (`multiprocessor.py:9-16`). `sequential = true` is the way the repository uses the executor: one loop
submits the tasks in order; `false` allows any number of submitting threads. `faulty` allows `super().submit` to raise. -/
inductive ExecStep {n : Nat} (bound : Nat) (sequential faulty : Bool) : Exec n → Exec n → Prop
  | acquire (s : Exec n) (i : Fin n) (h : s.phase i = .waiting) (hp : 0 < s.permits)
      (hseq : sequential = true → ∀ j, j < i → (s.phase j).pastSubmit = true) :
      ExecStep bound sequential faulty s { s.move i .holding with permits := s.permits - 1 }
  | submit (s : Exec n) (i : Fin n) (h : s.phase i = .holding) : ExecStep bound sequential faulty s (s.move i .queued)
  | submitRaises (s : Exec n) (i : Fin n) (hf : faulty = true) (h : s.phase i = .holding) :
      ExecStep bound sequential faulty s (s.move i .failed)
  | finishEarly (s : Exec n) (i : Fin n) (h : s.phase i = .queued) : ExecStep bound sequential faulty s (s.move i .queuedDone)
  | register (s : Exec n) (i : Fin n) (h : s.phase i = .queued) : ExecStep bound sequential faulty s (s.move i .watched)
  | registerDone (s : Exec n) (i : Fin n) (h : s.phase i = .queuedDone) : ExecStep bound sequential faulty s (s.move i .finished)
  | finish (s : Exec n) (i : Fin n) (h : s.phase i = .watched) : ExecStep bound sequential faulty s (s.move i .finished)
  | release (s : Exec n) (i : Fin n) (h : s.phase i = .finished) :
      ExecStep bound sequential faulty s
        { s.move i .released with
          permits := if s.permits < bound then s.permits + 1 else s.permits
          overflow := s.overflow || decide (bound ≤ s.permits)
          callbacks := s.callbacks ++ [i] }

/-- Executions: any number of steps. -/
def ExecReach {n : Nat} (bound : Nat) (sequential faulty : Bool) : Exec n → Exec n → Prop :=
  Relation.ReflTransGen (ExecStep bound sequential faulty)

/-! ## The concurrent collectors -/

/-- What one task of a collection does: it returns a result, raises `MissingFiles`/`CorruptedFileRead`, or raises something
else. -/
inductive TaskResult (R : Type) where
  | result (r : R)
  | skipped
  | error

/-- `get_sweep_outputs_sequentially` (`gensit/outputs.py:1322-1345`): exceptions propagate (`none`), empty results are
dropped. `size` is `len`. -/
def collectSequentially {R : Type} (size : R → Nat) : List (TaskResult R) → Option (List R)
  | [] => some []
  | .result r :: ts => (collectSequentially size ts).map fun l => if 0 < size r then r :: l else l
  | .skipped :: _ => none
  | .error :: _ => none

/-- The callback `my_callback` of `get_sweep_outputs_concurrently` (`outputs.py:1361-1370`): a nonempty result is appended;
a skipped task changes nothing; any other exception is raised inside the callback, where `concurrent.futures` logs and drops
it. -/
def collectCallback {R : Type} (size : R → Nat) (acc : List R) : TaskResult R → List R
  | .result r => if 0 < size r then acc ++ [r] else acc
  | .skipped => acc
  | .error => acc

/-- `get_sweep_outputs_concurrently` (`outputs.py:1347-1397`): the callbacks run in the order in which they were invoked. -/
def collectConcurrently {R : Type} {n : Nat} (size : R → Nat) (task : Fin n → TaskResult R) (order : List (Fin n)) : List R :=
  order.foldl (fun acc i => collectCallback size acc (task i)) []

/-! ## Progress-bar slots -/

/-- `position_index` (`gensit/utils/misc_utils.py:1199-1206`). -/
def positionIndex : List Bool → Nat
  | [] => 0
  | active :: rest => if active = false then 0 else positionIndex rest + 1

/-- A job of `prepare_instantiate_and_run` (`gensit/experiments.py:3755-3800`) as far as its slot is concerned. -/
inductive JobPhase where
  /-- Not started. -/
  | idle
  /-- `position_id = position_index(active_positions)` was evaluated, the slot is not yet marked. -/
  | looked (slot : Nat)
  /-- Running with this position. -/
  | running (slot : Nat)
  /-- Raised: `fut.result()` raises in the callback and the slot is not cleared. -/
  | crashed (slot : Nat)
  /-- Finished and the slot cleared by the callback. -/
  | finished
  deriving DecidableEq

/-- Shared slot list and the phase of every job. -/
structure Slots where
  active : List Bool
  job : Nat → JobPhase

def Slots.setJob (s : Slots) (j : Nat) (p : JobPhase) : Slots := { s with job := fun k => if k = j then p else s.job k }

/-- One atomic step of the slot protocol (`experiments.py:3763-3774`, `3841-3844`): looking up a slot and marking it are two
separate accesses to the shared list. Marking an index outside the list raises; the handler then uses position 0. -/
inductive SlotStep : Slots → Slots → Prop
  | look (s : Slots) (j : Nat) (h : s.job j = .idle) : SlotStep s (s.setJob j (.looked (positionIndex s.active)))
  | mark (s : Slots) (j p : Nat) (h : s.job j = .looked p) (hp : p < s.active.length) :
      SlotStep s ({ s with active := s.active.set p true }.setJob j (.running p))
  | markRaises (s : Slots) (j p : Nat) (h : s.job j = .looked p) (hp : ¬ p < s.active.length) : SlotStep s (s.setJob j (.running 0))
  | finish (s : Slots) (j p : Nat) (h : s.job j = .running p) :
      SlotStep s ({ s with active := s.active.set p false }.setJob j .finished)
  | crash (s : Slots) (j p : Nat) (h : s.job j = .running p) : SlotStep s (s.setJob j (.crashed p))

/-- `manager.list([False] * n_workers)` (`experiments.py:3839`). -/
def Slots.init (n : Nat) : Slots := ⟨List.replicate n false, fun _ => .idle⟩

def SlotReach : Slots → Slots → Prop := Relation.ReflTransGen SlotStep

/-- The same protocol when nothing happens between looking a slot up and marking it, and claims are made only while some slot
is free (claims serialised by the caller). -/
inductive SerialStep : Slots → Slots → Prop
  | claim (s : Slots) (j : Nat) (h : s.job j = .idle) (hfree : false ∈ s.active) :
      SerialStep s ({ s with active := s.active.set (positionIndex s.active) true }.setJob j (.running (positionIndex s.active)))
  | finish (s : Slots) (j p : Nat) (h : s.job j = .running p) :
      SerialStep s ({ s with active := s.active.set p false }.setJob j .finished)
  | crash (s : Slots) (j p : Nat) (h : s.job j = .running p) : SerialStep s (s.setJob j (.crashed p))

def SerialReach : Slots → Slots → Prop := Relation.ReflTransGen SerialStep

end GeNSIT
