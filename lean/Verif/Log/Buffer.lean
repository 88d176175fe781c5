import Mathlib.Data.List.Basic
import Mathlib.Logic.Function.Basic

/-!
# Property theorem C175 (log messages)

`CustomFileHandler` (`utils/logger_class.py:66-96`), which keeps messages in memory and writes them when it is closed; `DualLogger`
(`:137-302`), `Outputs.open_output_file` (`outputs.py:1011-1035`: the handler is pointed at the run's `outputs.log`), `Outputs.write_log`
(`outputs.py:939-957`, called by `Experiment.close_outputs`, `experiments.py:452-457`, at the end of `run`), `logging.shutdown` (called by the
interpreter when the process exits normally or by an exception) and the sweep's use of one logger for all members (`experiments.py:3746-3800`).

Modelled: the buffer, the name of the file in force (`none`: the temporary file `logs/temp_…`) and the contents written to every file, as lists of
messages.  Not modelled: formatting, the empty temporary files left behind, and the console.
-/

namespace GeNSIT

variable {α : Type}

/-- What happens to the logger of a process. -/
inductive LogEvent (α : Type)
  /-- A message is logged. -/
  | log (m : α)
  /-- `open_output_file` of a run that exports samples. -/
  | openFile (f : String)
  /-- `write_log`. -/
  | writeLog
deriving DecidableEq, Repr

/-- The handler and the files: messages waiting, the file in force, and what the files contain. -/
structure LogState (α : Type) where
  buffer : List α
  file : Option String
  files : Option String → List α

/-- A handler as created (`logger_class.py:67-77`), and no log files yet. -/
def LogState.fresh : LogState α := ⟨[], none, fun _ => []⟩

/-- `_write_to_file` (`logger_class.py:87-92`): append the waiting messages to the file in force and forget them. -/
def LogState.writeOut (s : LogState α) : LogState α :=
  ⟨[], s.file, Function.update s.files s.file (s.files s.file ++ s.buffer)⟩

/-- The threshold of the file logger: `DEBUG` in sweeps (`experiments.py:3748-3751`), otherwise none is set and that of Python's root logger, `WARNING`, is in force. -/
def fileThreshold (sweep : Bool) : ℕ := if sweep then 10 else 30

/-- Whether a message of a level reaches the file handler (`logger_class.py:208-302`). -/
def fileEnabled (sweep : Bool) (level : ℕ) : Bool := decide (fileThreshold sweep ≤ level)

/-- One event.  `enabled`: the level of the message reaches the file logger. -/
def LogState.step (enabled : α → Bool) (s : LogState α) : LogEvent α → LogState α
  -- `emit` (`logger_class.py:79-80`)
  | .log m => if enabled m then ⟨s.buffer ++ [m], s.file, s.files⟩ else s
  | .openFile f => ⟨s.buffer, some f, s.files⟩
  -- `flush` does nothing (`delay` is true), `close` writes; temporary files are skipped (`outputs.py:943-947`)
  | .writeLog => match s.file with
    | none => s
    | some _ => s.writeOut

/-- A history. -/
def LogState.run (enabled : α → Bool) (s : LogState α) (evs : List (LogEvent α)) : LogState α := evs.foldl (LogState.step enabled) s

/-- The process exits: `logging.shutdown` closes the handler, whatever file is in force. -/
def LogState.exit (s : LogState α) : LogState α := s.writeOut

/-- The log files after a process that exits. -/
def filesAfter (enabled : α → Bool) (evs : List (LogEvent α)) : Option String → List α := ((LogState.fresh.run enabled evs).exit).files

/-- The log files after a process that is killed, or a worker process (which ends without `logging.shutdown`). -/
def filesKilled (enabled : α → Bool) (s : LogState α) (evs : List (LogEvent α)) : Option String → List α := (s.run enabled evs).files

/-- A run: what is logged before its output file is created, while it runs and after it has closed its outputs. -/
structure LoggedRun (α : Type) where
  file : String
  before : List α
  during : List α
  after : List α

/-- The events of a completed run (`experiments.py:3755-3800` and `run` of the experiments). -/
def LoggedRun.events (r : LoggedRun α) : List (LogEvent α) :=
  r.before.map .log ++ .openFile r.file :: (r.during.map .log ++ .writeLog :: r.after.map .log)

/-- The events of a run that raises: its outputs are never closed. -/
def LoggedRun.failedEvents (r : LoggedRun α) : List (LogEvent α) :=
  r.before.map .log ++ .openFile r.file :: r.during.map .log

/-- `run_sequential` of a sweep, or the tasks of one worker process. -/
def sweepEvents (rs : List (LoggedRun α)) : List (LogEvent α) := (rs.map LoggedRun.events).flatten

/-! ### Specification -/

/-- Everything a run logs that is to be recorded. -/
def Spec.messagesOf (enabled : α → Bool) (r : LoggedRun α) : List α := (r.before ++ r.during ++ r.after).filter enabled

/-- Where a message logged while `cur` is in force ends, given what follows: in the file in force when the log is next written, or at the exit. -/
def Spec.destination (cur : Option String) : List (LogEvent α) → Option String
  | [] => cur
  | .log _ :: r => Spec.destination cur r
  | .openFile f :: r => Spec.destination (some f) r
  | .writeLog :: r => match cur with
    | none => Spec.destination none r
    | some f => some f

/-- The messages that end in the file `f`, in the order in which they were logged: each recorded message in exactly one file. -/
def Spec.contents (enabled : α → Bool) (f : Option String) (cur : Option String) : List (LogEvent α) → List α
  | [] => []
  | .log m :: r => (if enabled m = true ∧ Spec.destination cur r = f then [m] else []) ++ Spec.contents enabled f cur r
  | .openFile g :: r => Spec.contents enabled f (some g) r
  | .writeLog :: r => Spec.contents enabled f cur r

/-! ### Lemmas -/

theorem run_cons (enabled : α → Bool) (s : LogState α) (e : LogEvent α) (evs : List (LogEvent α)) :
    s.run enabled (e :: evs) = (s.step enabled e).run enabled evs := rfl

theorem run_append (enabled : α → Bool) (s : LogState α) (a b : List (LogEvent α)) :
    s.run enabled (a ++ b) = (s.run enabled a).run enabled b := List.foldl_append

theorem writeOut_files (s : LogState α) (f : Option String) :
    s.writeOut.files f = s.files f ++ if s.file = f then s.buffer else [] := by
  unfold LogState.writeOut
  by_cases h : s.file = f
  · subst h
    simp
  · simp only [Function.update_of_ne (Ne.symm h), if_neg h, List.append_nil]

/-- The log files at the exit, from any state of the handler. -/
theorem exit_files (enabled : α → Bool) (f : Option String) (evs : List (LogEvent α)) (s : LogState α) :
    ((s.run enabled evs).exit).files f =
      s.files f ++ (if Spec.destination s.file evs = f then s.buffer else []) ++ Spec.contents enabled f s.file evs := by
  induction evs generalizing s with
  | nil =>
    rw [show s.run enabled [] = s from rfl, LogState.exit, writeOut_files]
    by_cases h : s.file = f <;> simp [Spec.destination, Spec.contents, h]
  | cons e r ih =>
    rw [run_cons, ih]
    cases e with
    | log m =>
      by_cases hm : enabled m = true
      · simp only [LogState.step, Spec.destination, Spec.contents, hm, true_and]
        by_cases hd : Spec.destination s.file r = f <;> simp [hd]
      · simp only [LogState.step, if_neg hm, Spec.destination, Spec.contents]
        by_cases hd : Spec.destination s.file r = f <;> simp [hm, hd]
    | openFile g =>
      simp only [LogState.step, Spec.destination, Spec.contents]
      by_cases hd : Spec.destination (some g) r = f <;> simp [hd]
    | writeLog =>
      cases hf : s.file with
      | none =>
        simp only [LogState.step, hf, Spec.destination, Spec.contents]
        by_cases hd : Spec.destination none r = f <;> simp [hd]
      | some g =>
        have e1 : s.step enabled .writeLog = s.writeOut := by simp only [LogState.step, hf]
        rw [e1, writeOut_files]
        have e2 : s.writeOut.buffer = [] := rfl
        have e3 : s.writeOut.file = some g := hf
        rw [e2, e3, hf]
        by_cases hd : some g = f <;> simp [Spec.destination, Spec.contents, hd]

theorem run_logs (enabled : α → Bool) (s : LogState α) (l : List α) :
    s.run enabled (l.map .log) = ⟨s.buffer ++ l.filter enabled, s.file, s.files⟩ := by
  induction l generalizing s with
  | nil => simp [LogState.run]
  | cons a l ih =>
    rw [List.map_cons, run_cons, ih]
    by_cases ha : enabled a = true
    · simp [LogState.step, ha]
    · simp [LogState.step, ha]

theorem run_events (enabled : α → Bool) (s : LogState α) (r : LoggedRun α) :
    s.run enabled r.events = ⟨r.after.filter enabled, some r.file,
      Function.update s.files (some r.file) (s.files (some r.file) ++ (s.buffer ++ (r.before ++ r.during).filter enabled))⟩ := by
  unfold LoggedRun.events
  rw [run_append, run_logs, run_cons, run_append, LogState.step, run_logs, run_cons, run_logs]
  simp [LogState.step, LogState.writeOut]

/-- Writing the log ends in no other file than that of a run of the list. -/
theorem run_sweep_other (enabled : α → Bool) (s : LogState α) (rs : List (LoggedRun α)) (f : Option String) (hf : ∀ r ∈ rs, some r.file ≠ f) :
    (s.run enabled (sweepEvents rs)).files f = s.files f := by
  induction rs generalizing s with
  | nil => rfl
  | cons r rs ih =>
    have e : sweepEvents (r :: rs) = r.events ++ sweepEvents rs := by simp [sweepEvents]
    rw [e, run_append, ih _ fun r' h' => hf r' (by simp [h']), run_events]
    exact Function.update_of_ne (Ne.symm (hf r (by simp))) _ _

theorem sweepEvents_append (a b : List (LoggedRun α)) : sweepEvents (a ++ b) = sweepEvents a ++ sweepEvents b := by
  simp [sweepEvents]

theorem sweepEvents_cons (r : LoggedRun α) (b : List (LoggedRun α)) : sweepEvents (r :: b) = r.events ++ sweepEvents b := by
  simp [sweepEvents]

/-! ### Theorems -/

/-- **C175 (nothing is lost or doubled).**  After a process that exits, every file holds, in order, exactly the recorded messages whose destination it is. -/
theorem C175_exact (enabled : α → Bool) (evs : List (LogEvent α)) (f : Option String) :
    filesAfter enabled evs f = Spec.contents enabled f none evs := by
  unfold filesAfter
  rw [exit_files]
  by_cases hd : Spec.destination none evs = f <;> simp [LogState.fresh, hd]

/-- A single run (not a sweep): its log file holds everything it logged, including what is logged after its outputs are closed, and nothing goes elsewhere. -/
theorem C175_single (enabled : α → Bool) (r : LoggedRun α) :
    filesAfter enabled r.events (some r.file) = Spec.messagesOf enabled r ∧ ∀ g, g ≠ some r.file → filesAfter enabled r.events g = [] := by
  unfold filesAfter LogState.exit
  rw [run_events]
  constructor
  · rw [writeOut_files]
    simp [LogState.fresh, Spec.messagesOf]
  · intro g hg
    rw [writeOut_files]
    simp [LogState.fresh, Ne.symm hg, Function.update_of_ne hg]

/-- A run that raises: the log is written at the exit of the process, to its file. -/
theorem C175_failed_single (enabled : α → Bool) (r : LoggedRun α) :
    filesAfter enabled r.failedEvents (some r.file) = (r.before ++ r.during).filter enabled := by
  unfold filesAfter LogState.exit LoggedRun.failedEvents
  rw [run_append, run_logs, run_cons, LogState.step, run_logs, writeOut_files]
  simp [LogState.fresh]

/-- **C175 (exact behaviour in a sweep).**  The log file of a member holds the last messages of the member *before* it, then its own messages up to the closing
of its outputs; its last messages are there only if it is the last. -/
theorem C175_sweep_exact (enabled : α → Bool) (l rest : List (LoggedRun α)) (r : LoggedRun α)
    (hd : (l ++ r :: rest).Pairwise fun a b => a.file ≠ b.file) :
    filesAfter enabled (sweepEvents (l ++ r :: rest)) (some r.file) =
      (match l.getLast? with
        | some p => p.after.filter enabled
        | none => []) ++ (r.before ++ r.during).filter enabled ++ if rest = [] then r.after.filter enabled else [] := by
  rw [List.pairwise_append, List.pairwise_cons] at hd
  obtain ⟨_, ⟨hr, _⟩, hl⟩ := hd
  have hl' : ∀ a ∈ l, some a.file ≠ some r.file := fun a ha h => hl a ha r (by simp) (Option.some.inj h)
  have hr' : ∀ a ∈ rest, some a.file ≠ some r.file := fun a ha h => hr a ha (Option.some.inj h).symm
  -- the state when the member starts
  have hs0 : ((LogState.fresh (α := α)).run enabled (sweepEvents l)).files (some r.file) = [] := by
    rw [run_sweep_other enabled _ l _ hl']
    rfl
  have hbuf : ((LogState.fresh (α := α)).run enabled (sweepEvents l)).buffer = match l.getLast? with
      | some p => p.after.filter enabled
      | none => [] := by
    rcases List.eq_nil_or_concat l with rfl | ⟨l', p, rfl⟩
    · rfl
    · rw [List.concat_eq_append, sweepEvents_append, run_append, sweepEvents_cons, run_append, run_events]
      simp [sweepEvents, LogState.run]
  unfold filesAfter LogState.exit
  rw [sweepEvents_append, run_append, sweepEvents_cons, run_append, run_events, writeOut_files, run_sweep_other enabled _ rest _ hr']
  rw [hs0, hbuf]
  simp only [Function.update_self, List.nil_append]
  rcases List.eq_nil_or_concat rest with rfl | ⟨rest', q, rfl⟩
  · simp [sweepEvents, LogState.run]
  · have hq : some q.file ≠ some r.file := hr' q (by simp)
    rw [List.concat_eq_append, sweepEvents_append, run_append, sweepEvents_cons, run_append, run_events]
    simp only [sweepEvents, List.map_nil, List.flatten_nil, LogState.run, List.foldl_nil]
    rw [if_neg hq]
    simp

/-- "Each member's log file holds what the member logged" is false of sweeps: the message that the first member is done is in the log of the second. -/
theorem C175_sweep_false : ¬ ∀ (rs : List (LoggedRun String)) (r : LoggedRun String), r ∈ rs → (rs.Pairwise fun a b => a.file ≠ b.file) →
    filesAfter (fun _ => true) (sweepEvents rs) (some r.file) = Spec.messagesOf (fun _ => true) r := by
  intro h
  have h1 := h [⟨"a", ["0 START"], ["step"], ["0 DONE"]⟩, ⟨"b", ["1 START"], ["step"], ["1 DONE"]⟩] ⟨"a", ["0 START"], ["step"], ["0 DONE"]⟩ (by simp) (by simp)
  revert h1
  decide

/-- A member of a worker process that raises leaves its log to the worker's next member: its own file gets nothing. -/
theorem C175_failed_member (enabled : α → Bool) (a b : LoggedRun α) (hne : a.file ≠ b.file) :
    filesKilled enabled LogState.fresh (a.failedEvents ++ b.events) (some a.file) = [] ∧
      filesKilled enabled LogState.fresh (a.failedEvents ++ b.events) (some b.file) = (a.before ++ a.during ++ b.before ++ b.during).filter enabled := by
  unfold filesKilled LoggedRun.failedEvents
  rw [run_append, run_append, run_logs, run_cons, LogState.step, run_logs, run_events]
  constructor
  · exact Function.update_of_ne (by simpa using hne) _ _
  · simp [LogState.fresh]

/-- **C175 (killed processes).**  Of a process that is killed, exactly what was logged up to the last closing of outputs survives: the files are those of a process
that exits at that point. -/
theorem C175_killed (enabled : α → Bool) (pre post : List (LogEvent α)) (hp : .writeLog ∉ post) (ho : ∃ f, .openFile f ∈ pre) :
    filesKilled enabled LogState.fresh (pre ++ .writeLog :: post) = filesAfter enabled pre := by
  have nowrite : ∀ (evs : List (LogEvent α)) (s : LogState α), .writeLog ∉ evs → (s.run enabled evs).files = s.files := by
    intro evs
    induction evs with
    | nil => intro s _; rfl
    | cons e r ih =>
      intro s h
      rw [List.mem_cons, not_or] at h
      rw [run_cons, ih _ h.2]
      cases e with
      | log m => simp only [LogState.step]; split <;> rfl
      | openFile f => rfl
      | writeLog => exact absurd rfl h.1
  have opened : ∀ (evs : List (LogEvent α)) (s : LogState α), (s.file ≠ none ∨ ∃ f, .openFile f ∈ evs) → (s.run enabled evs).file ≠ none := by
    intro evs
    induction evs with
    | nil =>
      rintro s (h | ⟨f, h⟩)
      · exact h
      · cases h
    | cons e r ih =>
      intro s h
      rw [run_cons]
      refine ih _ ?_
      cases e with
      | log m =>
        rcases h with h | ⟨f, h⟩
        · left
          simp only [LogState.step]
          split <;> exact h
        · right
          exact ⟨f, by simpa using h⟩
      | openFile f => left; simp [LogState.step]
      | writeLog =>
        rcases h with h | ⟨f, h⟩
        · left
          simp only [LogState.step]
          split
          · exact h
          · exact h
        · right
          exact ⟨f, by simpa using h⟩
  unfold filesKilled filesAfter LogState.exit
  rw [run_append, run_cons, nowrite _ _ hp]
  have := opened pre LogState.fresh (.inr ho)
  cases hf : ((LogState.fresh (α := α)).run enabled pre).file with
  | none => exact absurd hf this
  | some g => simp only [LogState.step, hf]

/-- A run that is killed before it closes its outputs leaves no log at all. -/
theorem C175_killed_nothing (enabled : α → Bool) (evs : List (LogEvent α)) (h : .writeLog ∉ evs) (f : Option String) :
    filesKilled enabled LogState.fresh evs f = [] := by
  have : ∀ (evs : List (LogEvent α)) (s : LogState α), .writeLog ∉ evs → (s.run enabled evs).files = s.files := by
    intro evs
    induction evs with
    | nil => intro s _; rfl
    | cons e r ih =>
      intro s h
      rw [List.mem_cons, not_or] at h
      rw [run_cons, ih _ h.2]
      cases e with
      | log m => simp only [LogState.step]; split <;> rfl
      | openFile f => rfl
      | writeLog => exact absurd rfl h.1
  unfold filesKilled
  rw [this evs _ h]
  rfl

/-- "What was logged before a run is killed is in its log file" is false. -/
theorem C175_killed_false : ¬ ∀ (r : LoggedRun String), ∃ f, ∀ m ∈ r.during, m ∈ filesKilled (fun _ => true) LogState.fresh r.failedEvents f := by
  intro h
  obtain ⟨f, h1⟩ := h ⟨"a", [], ["error"], []⟩
  have h2 := h1 "error" (by simp)
  rw [C175_killed_nothing _ _ (by simp [LoggedRun.failedEvents])] at h2
  cases h2

/-- **C175 (forked workers).**  A worker starts with a copy of the messages waiting in the main process and does not write what is left when it ends: the file of
its first member starts with the main process's messages (in every worker), and the last messages of its last member are in no file. -/
theorem C175_forked (enabled : α → Bool) (main : LogState α) (hm : ∀ f, main.files f = []) (r : LoggedRun α) :
    filesKilled enabled main r.events (some r.file) = main.buffer ++ (r.before ++ r.during).filter enabled ∧
      ∀ g, g ≠ some r.file → filesKilled enabled main r.events g = [] := by
  unfold filesKilled
  rw [run_events]
  constructor
  · simp [hm]
  · intro g hg
    exact (Function.update_of_ne hg _ _).trans (hm g)

/-- **C175 (levels).**  In a sweep every message from `DEBUG` up is recorded; otherwise messages below `WARNING` (information, notes, iterations, progress, highlights) are not. -/
theorem C175_levels (level : ℕ) : (fileEnabled true level = true ↔ 10 ≤ level) ∧ (fileEnabled false level = true ↔ 30 ≤ level) := by
  simp [fileEnabled, fileThreshold]

/-! ### Examples -/

example : filesAfter (fun _ => true) (sweepEvents [⟨"a", ["0 START"], ["x"], ["0 DONE"]⟩, ⟨"b", ["1 START"], ["y"], ["1 DONE"]⟩]) (some "b") =
    ["0 DONE", "1 START", "y", "1 DONE"] := by decide

example : filesKilled (fun _ => true) LogState.fresh [LogEvent.log 1, .openFile "a", .log 2, .writeLog, .log 3] (some "a") = [1, 2] := by decide

example : filesAfter (fileEnabled false) (LoggedRun.events ⟨"a", [20], [18, 30], [35]⟩) (some "a") = [30, 35] := by decide

end GeNSIT
