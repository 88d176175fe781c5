import Mathlib.Data.List.Basic
import Mathlib.Logic.Function.Iterate

/-!
# Property theorem C172 (a seeded run is determined by its configuration)

`set_seed` (`utils/misc_utils.py:730-741`) and where it is called: in the constructor of every experiment (`experiments.py:890, 1139,
1323, 1537, 1817, 1999, 2221, 2485, …`), again in `run` of the three MCMC experiments (`:1389, 1621, 1918`), and while stopping times are
generated (`utils/probability_utils.py:242-244`, `learning_models/HarrisWilsonModel_MCMC.py:83-85`).  Experiments are started by
`ExperimentHandler` (`experiments.py:52-126`: all constructors, then all runs) or by `ExperimentSweep` (`:3755-3868`: constructor and run
of each member, one after the other or in worker processes).

The three global generators are a machine with arbitrary states, seeding functions and outputs; what an experiment computes is an arbitrary
program that may draw from the generators and set the seed.  Files are not modelled here (the file of stopping times: C154).
-/

namespace GeNSIT

/-- The global generators: `random`, `numpy.random`, `torch`. -/
inductive Gen | py | np | torch
deriving DecidableEq, Repr

/-- How the generators work: the state after seeding, and a draw. -/
structure RngMachine where
  State : Type
  init : ℕ → Gen → State
  next : Gen → State → ℕ × State

/-- The states of the three generators of a process. -/
abbrev RngMachine.World (M : RngMachine) : Type := Gen → M.State

/-- A computation with random draws and seeding. -/
inductive RProg (α : Type) : Type
  | ret : α → RProg α
  | draw : Gen → (ℕ → RProg α) → RProg α
  | seed : Option ℕ → RProg α → RProg α

/-- Sequencing. -/
def RProg.bind {α β : Type} : RProg α → (α → RProg β) → RProg β
  | .ret a, f => f a
  | .draw g k, f => .draw g fun v => (k v).bind f
  | .seed s p, f => .seed s (p.bind f)

/-- `set_seed` (`misc_utils.py:730-741`): all three generators, or nothing for `None`. -/
def setSeed (M : RngMachine) (s : Option ℕ) (w : M.World) : M.World :=
  match s with
  | some n => fun g => M.init n g
  | none => w

/-- The result of a computation, the generators afterwards, and the generator states consumed by the draws. -/
def RProg.exec {α : Type} (M : RngMachine) : RProg α → M.World → α × M.World × List (Gen × M.State)
  | .ret a, w => (a, w, [])
  | .draw g k, w =>
    let r := (k (M.next g (w g)).1).exec M (Function.update w g (M.next g (w g)).2)
    (r.1, r.2.1, (g, w g) :: r.2.2)
  | .seed s p, w => p.exec M (setSeed M s w)

/-- The kinds of experiments, by where they set the seed. -/
inductive ExptKind
  /-- `SIM_MCMC`, `JointTableSIM_MCMC`: constructor, generation of stopping times, run. -/
  | simMcmc
  /-- `Table_MCMC`: constructor and run. -/
  | tableMcmc
  /-- all others: constructor only. -/
  | other
deriving DecidableEq, Repr

/-- An experiment: its kind, the configured seed, and what it draws while it is constructed (after seeding), while its model is set up at the
start of `run`, and in the rest of `run`. -/
structure Expt (C D R : Type) where
  kind : ExptKind
  seed : Option ℕ
  setup : RProg C
  model : C → RProg D
  chain : C → D → RProg R

variable {C D R : Type}

/-- The constructor (`set_seed(self.seed)` first, e.g. `experiments.py:1323`). -/
def Expt.construct (e : Expt C D R) : RProg C := .seed e.seed e.setup

/-- Setting up the model: `generate_stopping_times` sets the seed if there is one (`probability_utils.py:243-244`), and `set_seed(None)` afterwards
does nothing (`HarrisWilsonModel_MCMC.py:83-85`). -/
def Expt.setModel (e : Expt C D R) (c : C) : RProg D :=
  match e.kind with
  | .simMcmc => .seed e.seed ((e.model c).bind fun d => .seed none (.ret d))
  | _ => e.model c

/-- The rest of `run`; the MCMC experiments set the seed first. -/
def Expt.rest (e : Expt C D R) (c : C) (d : D) : RProg R :=
  match e.kind with
  | .other => e.chain c d
  | _ => .seed e.seed (e.chain c d)

/-- `run`. -/
def Expt.runProg (e : Expt C D R) (c : C) : RProg R := (e.setModel c).bind (e.rest c)

/-- `prepare_instantiate_and_run` (`experiments.py:3755-3800`): a member of a sweep. -/
def Expt.whole (e : Expt C D R) : RProg R := e.construct.bind e.runProg

/-- `run_sequential` (`experiments.py:3802-3818`). -/
def sweepSequential (M : RngMachine) : List (Expt C D R) → M.World → List R
  | [], _ => []
  | e :: es, w => (e.whole.exec M w).1 :: sweepSequential M es (e.whole.exec M w).2.1

/-- `run_concurrent` (`experiments.py:3820-3868`): each task is run by some worker process, whose generators it leaves changed for the worker's
next task.  `tasks` lists the tasks in the order in which they start; tasks of different workers do not share generators. -/
def sweepConcurrent (M : RngMachine) : List (ℕ × Expt C D R) → (ℕ → M.World) → List R
  | [], _ => []
  | (k, e) :: ts, ws =>
    (e.whole.exec M (ws k)).1 :: sweepConcurrent M ts (Function.update ws k (e.whole.exec M (ws k)).2.1)

/-- Worker processes are forked from the main process and start with copies of its generators. -/
def forked (M : RngMachine) (w : M.World) : ℕ → M.World := fun _ => w

/-- `setup_experiments` (`experiments.py:87-114`): all constructors. -/
def constructAll (M : RngMachine) : List (Expt C D R) → M.World → List (Expt C D R × C) × M.World
  | [], w => ([], w)
  | e :: es, w =>
    let r := e.construct.exec M w
    let rest := constructAll M es r.2.1
    ((e, r.1) :: rest.1, rest.2)

/-- `run_experiments_sequentially` (`experiments.py:116-126`): all runs. -/
def runAll (M : RngMachine) : List (Expt C D R × C) → M.World → List R
  | [], _ => []
  | (e, c) :: es, w => ((e.runProg c).exec M w).1 :: runAll M es ((e.runProg c).exec M w).2.1

/-- `ExperimentHandler` and its run. -/
def handlerRun (M : RngMachine) (es : List (Expt C D R)) (w : M.World) : List R :=
  let r := constructAll M es w
  runAll M r.1 r.2

/-! ### Specification -/

/-- `e`, run alone in a process whose generators are in states `w`, gives `x`. -/
def Spec.AloneGives (M : RngMachine) (e : Expt C D R) (w : M.World) (x : R) : Prop :=
  ((e.construct.bind e.runProg).exec M w).1 = x

/-- The result `x` is determined by the experiment, whatever happened before. -/
def Spec.Determined (M : RngMachine) (e : Expt C D R) (x : R) : Prop := ∀ w, Spec.AloneGives M e w x

/-! ### Lemmas -/

theorem exec_bind {α β : Type} (M : RngMachine) (p : RProg α) (f : α → RProg β) (w : M.World) :
    ((p.bind f).exec M w).1 = ((f (p.exec M w).1).exec M (p.exec M w).2.1).1 ∧
      ((p.bind f).exec M w).2.1 = ((f (p.exec M w).1).exec M (p.exec M w).2.1).2.1 ∧
      ((p.bind f).exec M w).2.2 = (p.exec M w).2.2 ++ ((f (p.exec M w).1).exec M (p.exec M w).2.1).2.2 := by
  induction p generalizing w with
  | ret a => exact ⟨rfl, rfl, rfl⟩
  | draw g k ih =>
    obtain ⟨h1, h2, h3⟩ := ih (M.next g (w g)).1 (Function.update w g (M.next g (w g)).2)
    refine ⟨h1, h2, ?_⟩
    simp only [RProg.bind, RProg.exec, List.cons_append]
    rw [h3]
  | seed s p ih => exact ih (setSeed M s w)

theorem construct_indep (M : RngMachine) (e : Expt C D R) (s : ℕ) (hs : e.seed = some s) (w w' : M.World) :
    e.construct.exec M w = e.construct.exec M w' := by
  simp only [Expt.construct, RProg.exec, hs, setSeed]

theorem whole_indep (M : RngMachine) (e : Expt C D R) (s : ℕ) (hs : e.seed = some s) (w w' : M.World) :
    e.whole.exec M w = e.whole.exec M w' := by
  simp only [Expt.whole, Expt.construct, RProg.bind, RProg.exec, hs, setSeed]

theorem run_indep (M : RngMachine) (e : Expt C D R) (s : ℕ) (hs : e.seed = some s) (hk : e.kind = .simMcmc) (c : C) (w w' : M.World) :
    ((e.runProg c).exec M w).1 = ((e.runProg c).exec M w').1 := by
  simp only [Expt.runProg, Expt.setModel, hk, RProg.bind, RProg.exec, hs, setSeed]

/-! ### Theorems -/

/-- **C172.**  With a seed, an experiment run from its constructor on gives the same result whatever the generators were before. -/
theorem C172_seeded (M : RngMachine) (e : Expt C D R) (s : ℕ) (hs : e.seed = some s) : ∃ x, Spec.Determined M e x := by
  refine ⟨(e.whole.exec M fun g => M.init 0 g).1, fun w => ?_⟩
  have := whole_indep M e s hs w fun g => M.init 0 g
  unfold Spec.AloneGives
  rw [← this]
  rfl

/-- Members of a sequential sweep: each gives what it gives alone. -/
theorem C172_sweep_sequential (M : RngMachine) (es : List (Expt C D R)) (hs : ∀ e ∈ es, e.seed ≠ none) (w : M.World) :
    List.Forall₂ (Spec.Determined M) es (sweepSequential M es w) := by
  induction es generalizing w with
  | nil => exact List.Forall₂.nil
  | cons e es ih =>
    obtain ⟨s, he⟩ := Option.ne_none_iff_exists'.1 (hs e (by simp))
    refine List.Forall₂.cons (fun w' => ?_) (ih (fun e' h' => hs e' (by simp [h'])) _)
    unfold Spec.AloneGives
    exact congrArg (·.1) (whole_indep M e s he w' w)

/-- Members of a concurrent sweep: the same, for every number of workers, every assignment of tasks to workers and all states of the
workers' generators. -/
theorem C172_sweep_concurrent (M : RngMachine) (ts : List (ℕ × Expt C D R)) (hs : ∀ t ∈ ts, t.2.seed ≠ none) (ws : ℕ → M.World) :
    List.Forall₂ (fun t x => Spec.Determined M t.2 x) ts (sweepConcurrent M ts ws) := by
  induction ts generalizing ws with
  | nil => exact List.Forall₂.nil
  | cons t ts ih =>
    obtain ⟨k, e⟩ := t
    obtain ⟨s, he⟩ := Option.ne_none_iff_exists'.1 (hs (k, e) (by simp))
    refine List.Forall₂.cons (fun w' => ?_) (ih (fun e' h' => hs e' (by simp [h'])) _)
    unfold Spec.AloneGives
    exact congrArg (·.1) (whole_indep M e s he w' (ws k))

theorem run_indep_table (M : RngMachine) (e : Expt C D R) (hk : e.kind = .tableMcmc) (s : ℕ) (hs : e.seed = some s)
    (hm : ∀ c, ∃ d, e.model c = .ret d) (c : C) (w w' : M.World) :
    ((e.runProg c).exec M w).1 = ((e.runProg c).exec M w').1 := by
  obtain ⟨d, hd⟩ := hm c
  simp only [Expt.runProg, Expt.setModel, Expt.rest, hk, hd, RProg.bind, RProg.exec, hs, setSeed]

theorem runAll_mcmc (M : RngMachine) (es : List (Expt C D R))
    (hk : ∀ e ∈ es, e.kind = .simMcmc ∨ e.kind = .tableMcmc ∧ ∀ c, ∃ d, e.model c = .ret d) (hs : ∀ e ∈ es, e.seed ≠ none)
    (w w' : M.World) : List.Forall₂ (Spec.Determined M) es (runAll M (constructAll M es w).1 w') := by
  induction es generalizing w w' with
  | nil => exact List.Forall₂.nil
  | cons e es ih =>
    obtain ⟨s, he⟩ := Option.ne_none_iff_exists'.1 (hs e (by simp))
    simp only [constructAll, runAll]
    refine List.Forall₂.cons (fun w₂ => ?_) (ih (fun e' h' => hk e' (by simp [h'])) (fun e' h' => hs e' (by simp [h'])) _ _)
    unfold Spec.AloneGives
    rw [(exec_bind M _ _ w₂).1, construct_indep M e s he w₂ w]
    rcases hk e (by simp) with h | ⟨h, hm⟩
    · exact run_indep M e s he h _ _ _
    · exact run_indep_table M e h s he hm _ _ _

/-- Several experiments of one call: those that set the seed in `run` (`SIM_MCMC`, `JointTableSIM_MCMC`; `Table_MCMC`, whose model is given when it is
constructed) give what they give alone. -/
theorem C172_together_partial (M : RngMachine) (es : List (Expt C D R))
    (hk : ∀ e ∈ es, e.kind = .simMcmc ∨ e.kind = .tableMcmc ∧ ∀ c, ∃ d, e.model c = .ret d)
    (hs : ∀ e ∈ es, e.seed ≠ none) (w : M.World) : List.Forall₂ (Spec.Determined M) es (handlerRun M es w) :=
  runAll_mcmc M es hk hs w _

/-- A single experiment of a call gives what it gives alone. -/
theorem C172_single (M : RngMachine) (e : Expt C D R) (w : M.World) :
    ∃ x, handlerRun M [e] w = [x] ∧ Spec.AloneGives M e w x := by
  refine ⟨_, rfl, ?_⟩
  unfold Spec.AloneGives
  rw [(exec_bind M _ _ w).1]
  rfl

/-- **C172, exact behaviour of a call with several experiments.**  The first run starts with the generators as the *last* constructor left
them, each further run with those left by the run before it. -/
theorem C172_together_exact (M : RngMachine) (e last : Expt C D R) (es : List (Expt C D R)) (w : M.World) (s : ℕ) (hs : last.seed = some s) :
    ∃ c rest, handlerRun M (e :: es ++ [last]) w =
      ((e.runProg c).exec M (last.construct.exec M fun g => M.init s g).2.1).1 :: rest ∧ c = (e.construct.exec M w).1 := by
  have key : ∀ (l : List (Expt C D R)) (w : M.World),
      (constructAll M (l ++ [last]) w).2 = (last.construct.exec M fun g => M.init s g).2.1 := by
    intro l
    induction l with
    | nil =>
      intro w
      simp only [List.nil_append, constructAll]
      rw [construct_indep M last s hs w]
    | cons a l ih =>
      intro w
      simp only [List.cons_append, constructAll]
      exact ih _
  refine ⟨(e.construct.exec M w).1, ?_⟩
  simp only [handlerRun, List.cons_append, constructAll, runAll]
  rw [key es]
  exact ⟨_, rfl, trivial⟩

/-! ### Where it fails -/

/-- A machine that counts: seeded with `s` it yields `s, s + 1, …`. -/
def countingRng : RngMachine := ⟨ℕ, fun s _ => s, fun _ k => (k, k + 1)⟩

/-- An experiment whose only draw is in `run`, of the kind that sets the seed in its constructor (e.g. the initial weights of a network). -/
def drawOnce (s : Option ℕ) : Expt Unit Unit ℕ where
  kind := .other
  seed := s
  setup := .ret ()
  model := fun _ => .ret ()
  chain := fun _ _ => .draw .torch .ret

/-- "A seeded experiment gives the same result alone and together with others" is false: asked for with another one, the first network starts
from the seed of the second. -/
theorem C172_together_false : ¬ ∀ (M : RngMachine) (es : List (Expt Unit Unit ℕ)) (w : M.World), (∀ e ∈ es, e.seed ≠ none) →
    List.Forall₂ (Spec.Determined M) es (handlerRun M es w) := by
  intro h
  have h1 := h countingRng [drawOnce (some 1), drawOnce (some 2)] (fun _ => (0 : ℕ)) (by simp [drawOnce])
  have h2 : Spec.Determined countingRng (drawOnce (some 1)) 2 := by
    cases h1 with
    | cons a _ => exact a
  have h3 : (1 : ℕ) = 2 := h2 fun _ => (0 : ℕ)
  exact absurd h3 (by decide)

/-- With the *same* seed for both, the second of two such experiments still does not give what it gives alone. -/
theorem C172_same_seed_false : ∃ x, handlerRun countingRng [drawOnce (some 1), drawOnce (some 1)] (fun _ => (0 : ℕ)) = [1, x] ∧
    ¬ Spec.Determined countingRng (drawOnce (some 1)) x := by
  refine ⟨2, rfl, fun h => ?_⟩
  have h3 : (1 : ℕ) = 2 := h fun _ => (0 : ℕ)
  exact absurd h3 (by decide)

/-! ### Without a seed -/

theorem concurrent_first (M : RngMachine) (ts : List (ℕ × Expt C D R)) (ws : ℕ → M.World) (j : ℕ) (hj : j < ts.length)
    (hfirst : ∀ i, (hi : i < j) → (ts[i]'(by omega)).1 ≠ (ts[j]).1) :
    (sweepConcurrent M ts ws)[j]? = some ((ts[j]).2.whole.exec M (ws (ts[j]).1)).1 := by
  induction ts generalizing ws j with
  | nil => simp at hj
  | cons t ts ih =>
    obtain ⟨k, e⟩ := t
    cases j with
    | zero => simp [sweepConcurrent]
    | succ j =>
      have hj' : j < ts.length := by simpa using hj
      have hk : k ≠ (ts[j]).1 := hfirst 0 (by omega)
      simp only [sweepConcurrent, List.getElem?_cons_succ, List.getElem_cons_succ]
      rw [ih _ j hj' fun i hi => hfirst (i + 1) (by omega), Function.update_of_ne hk.symm]

/-- **C172, without a seed.**  The first tasks of any two worker processes draw the same random numbers: equal configurations give equal results,
for every state of the main process. -/
theorem C172_unseeded_copies (M : RngMachine) (ts : List (ℕ × Expt C D R)) (w : M.World) (i j : ℕ) (hi : i < ts.length) (hj : j < ts.length)
    (hfi : ∀ k, (hk : k < i) → (ts[k]'(by omega)).1 ≠ (ts[i]).1) (hfj : ∀ k, (hk : k < j) → (ts[k]'(by omega)).1 ≠ (ts[j]).1)
    (he : (ts[i]).2 = (ts[j]).2) :
    (sweepConcurrent M ts (forked M w))[i]? = (sweepConcurrent M ts (forked M w))[j]? := by
  rw [concurrent_first M ts _ i hi hfi, concurrent_first M ts _ j hj hfj, he]
  rfl

/-- "Unseeded repetitions of a configuration draw different random numbers" is false of two workers, and true of one: the results of two repetitions of one
draw are equal for all states when run by two workers, and different for all states when run one after the other. -/
theorem C172_unseeded_false : ∀ w : countingRng.World,
    (∃ x, sweepConcurrent countingRng [(0, drawOnce none), (1, drawOnce none)] (forked countingRng w) = [x, x]) ∧
      ∃ x y, sweepSequential countingRng [drawOnce none, drawOnce none] w = [x, y] ∧ x ≠ y := by
  intro w
  exact ⟨⟨w .torch, rfl⟩, ⟨w .torch, Nat.succ (w .torch), rfl, (Nat.succ_ne_self _).symm⟩⟩

/-! ### Reuse of random numbers within a run -/

/-- No seeding inside. -/
def RProg.NoSeed {α : Type} : RProg α → Prop
  | .ret _ => True
  | .draw _ k => ∀ v, (k v).NoSeed
  | .seed _ _ => False

/-- The states of generator `g` consumed by a computation, in order. -/
def Spec.consumed {α : Type} (M : RngMachine) (g : Gen) (p : RProg α) (w : M.World) : List M.State :=
  ((p.exec M w).2.2.filter fun x => x.1 = g).map Prod.snd

theorem consumed_iterate {α : Type} (M : RngMachine) (g : Gen) (p : RProg α) (hp : p.NoSeed) (w : M.World) (i : ℕ) (x : M.State)
    (h : (Spec.consumed M g p w)[i]? = some x) : x = Nat.iterate (fun s => (M.next g s).2) i (w g) := by
  induction p generalizing w i with
  | ret a => simp [Spec.consumed, RProg.exec] at h
  | draw g' k ih =>
    by_cases hg : g' = g
    · subst hg
      have e : Spec.consumed M g' (.draw g' k) w =
          w g' :: Spec.consumed M g' (k (M.next g' (w g')).1) (Function.update w g' (M.next g' (w g')).2) := by
        simp [Spec.consumed, RProg.exec]
      rw [e] at h
      cases i with
      | zero => simpa using h.symm
      | succ i =>
        rw [List.getElem?_cons_succ] at h
        rw [ih _ (hp _) _ i h, Function.update_self, Function.iterate_succ_apply]
    · have e : Spec.consumed M g (.draw g' k) w =
          Spec.consumed M g (k (M.next g' (w g')).1) (Function.update w g' (M.next g' (w g')).2) := by
        simp [Spec.consumed, RProg.exec, hg]
      rw [e] at h
      rw [ih _ (hp _) _ i h, Function.update_of_ne (Ne.symm hg)]
  | seed s p ih => exact absurd hp (by simp [RProg.NoSeed])

/-- **C172, reuse.**  In a seeded `SIM_MCMC` run that generates its stopping times, the `i`-th number drawn from a generator for the stopping times and the
`i`-th number drawn from it by the chain are the same number, for every `i` both reach and whatever the generators were before: stopping
times and proposals are not independent. -/
theorem C172_stopping_reused (M : RngMachine) (e : Expt C D R) (s : ℕ) (hs : e.seed = some s) (g : Gen) (c : C) (d : D)
    (hm : (e.model c).NoSeed) (hc : (e.chain c d).NoSeed) (hk : e.kind = .simMcmc) (w w' : M.World) (i : ℕ) (x y : M.State)
    (hx : (Spec.consumed M g (e.setModel c) w)[i]? = some x) (hy : (Spec.consumed M g (e.rest c d) w')[i]? = some y) : x = y := by
  have e1 : Spec.consumed M g (e.setModel c) w = Spec.consumed M g (e.model c) fun g => M.init s g := by
    have := (exec_bind M (e.model c) (fun d => .seed none (.ret d)) fun g => M.init s g).2.2
    simp only [Spec.consumed, Expt.setModel, hk, RProg.exec, hs, setSeed, this, List.append_nil]
  have e2 : Spec.consumed M g (e.rest c d) w' = Spec.consumed M g (e.chain c d) fun g => M.init s g := by
    simp only [Spec.consumed, Expt.rest, hk, RProg.exec, hs, setSeed]
  rw [e1] at hx
  rw [e2] at hy
  rw [consumed_iterate M g _ hm _ i x hx, consumed_iterate M g _ hc _ i y hy]

/-- A run with one stopping time and one proposal. -/
def oneStopping : Expt Unit ℕ ℕ where
  kind := .simMcmc
  seed := some 5
  setup := .ret ()
  model := fun _ => .draw .torch .ret
  chain := fun _ d => .draw .torch fun v => .ret (100 * d + v)

/-- The stopping time and the proposal are made from the number 5 both. -/
example : sweepSequential countingRng [oneStopping] (fun _ => (7 : ℕ)) = [505] := rfl

example : handlerRun countingRng [oneStopping, { oneStopping with seed := some 3 }] (fun _ => (7 : ℕ)) = [505, 303] := rfl

example : (Spec.consumed countingRng .torch (oneStopping.setModel ()) fun _ => (7 : ℕ))[0]? = some (5 : ℕ) ∧
    (Spec.consumed countingRng .torch (oneStopping.rest () 5) fun _ => (9 : ℕ))[0]? = some (5 : ℕ) := ⟨rfl, rfl⟩

example : sweepConcurrent countingRng [(0, drawOnce (some 4)), (1, drawOnce (some 6)), (0, drawOnce (some 4))] (forked countingRng fun _ => (9 : ℕ)) =
    [4, 6, 4] := rfl

end GeNSIT
