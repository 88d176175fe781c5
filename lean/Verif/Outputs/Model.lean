import Mathlib.Data.Nat.Basic
import Mathlib.Data.Rat.Floor
import Mathlib.Data.List.Basic
import Mathlib.Logic.Relation

/-!
# Model of output writing and reading: index slices, the write schedule, metadata files, grouping, progress batches
-/

namespace GeNSIT

/-! ## Burn-in, thinning, trimming -/

/-- One entry of `burnin_thinning_trimming`: the dimension names (`"a+b"` split at `+`) and its settings. -/
structure IndexSlice where
  dims : List String
  burnin : Nat
  thinning : Nat
  trimming : Option Nat

/-- `np.arange(burnin, total, thinning)[:trimming]` (`gensit/outputs.py:474-485`) for a positive step. Negative burn-in and
negative trimming (Python's slice-from-the-end) are not modelled. -/
def sliceIndices (burnin thinning : Nat) (trimming : Option Nat) (total : Nat) : List Nat :=
  let all := (List.range ((total - burnin + thinning - 1) / thinning)).map fun k => burnin + thinning * k
  match trimming with
  | none => all
  | some m => all.take m

/-- Sample data as far as slicing is concerned: every dimension with the coordinates kept along it. -/
abbrev Coords := List (String × List Int)

/-- Replace the coordinates of one dimension. -/
def setDim (d : String) (xs : List Int) (c : Coords) : Coords := c.map fun e => if e.1 = d then (d, xs) else e

/-- The coordinates along a dimension. -/
def dimCoords (d : String) (c : Coords) : List Int := match c.find? (fun e => decide (e.1 = d)) with
  | some e => e.2
  | none => []

/-- `samples.isel(...)` with an index list: the coordinates at those positions. -/
def takeAt (xs : List Int) (idx : List Nat) : List Int := idx.filterMap fun i => xs[i]?

/-- `slice_coordinates_by_index` (`outputs.py:437-541`) on the list of slices, with the dimensions sliced so far. `none` is an
exception: a zero step, or an empty array at the end. Entries naming two or more dimensions of the sample (which the code
stacks and unstacks, filling the unselected corner cells with NaN) are not modelled: `none`. -/
def sliceLoop : List IndexSlice → List String → Coords → Option Coords
  | [], _, c => if c.all (fun e => !e.2.isEmpty) then some c else none
  | s :: ss, sliced, c =>
    match c.filter (fun e => s.dims.contains e.1) with
    | [] => sliceLoop ss sliced c
    | [(d, xs)] =>
      if s.thinning = 0 then none
      else if sliced.contains d then sliceLoop ss sliced c
      else
        let kept := takeAt xs (sliceIndices s.burnin s.thinning s.trimming xs.length)
        let c' := setDim d kept c
        if c'.any (fun e => e.2.isEmpty) then sliceLoop ss sliced c
        else sliceLoop ss (d :: sliced) c'
    | _ => none

/-! ## The write schedule -/

/-- The sample names `write_data` knows (`gensit/experiments.py:717-750`): losses (under the key `loss`), parameters, and the
plain list. The grid-search samples `r2` and `log_posterior_approximation`, written at a grid index, are not modelled. -/
def plainSamples : List String :=
  ["log_destination_attraction", "sign", "table", "intensity", "theta_acc", "log_destination_attraction_acc", "table_acc",
   "compute_time", "table_compute_time", "intensity_compute_time"]

/-- Experiment state relevant to writing (`experiments.py:257-262`): the clock, the schedule, the export flag, the names of the
output datasets and their rows. The datasets of the individual parameters (`self.thetas`) are written together and modelled
as one dataset `theta`; likewise the losses as `loss`. -/
structure Writer (V : Type) where
  time : Nat
  start : Nat
  every : Nat
  exporting : Bool
  names : List String
  rows : String → List V

/-- The conjunction of tests under which a sample is appended in `write_data` (`experiments.py:717`, `725-728`, `745`). -/
def Writer.writes {V : Type} (w : Writer V) (kwargs : String → Option V) (name : String) : Option V :=
  if (name == "loss" || name == "theta" || plainSamples.contains name) && w.names.contains name then kwargs name else none

/-- `write_data(**kwargs)` (`experiments.py:703-750`) with the default `index = -1`, `n_samples = 1`: every dataset concerned is
extended by one row, which receives the value. `every = 0` (a `ZeroDivisionError` in the code) is excluded by the theorems. -/
def Writer.writeData {V : Type} (w : Writer V) (kwargs : String → Option V) : Writer V :=
  if w.exporting then
    if w.start ≤ w.time ∧ w.time % w.every = 0 then
      { w with rows := fun name => match w.writes kwargs name with
        | some v => w.rows name ++ [v]
        | none => w.rows name }
    else w
  else w

/-- One iteration of the MCMC experiments (`experiments.py:1426-1505`, `1669-1785`): a sequence of `write_data` calls, then the
clock advances. -/
def Writer.iteration {V : Type} (w : Writer V) (calls : List (String → Option V)) : Writer V :=
  let w' := calls.foldl Writer.writeData w
  { w' with time := w'.time + 1 }

/-- `N` iterations (`experiments.py:1424`, `1666`: the clock is set to one first); `calls i` are the writes of the `i`-th
iteration, counted from one. -/
def Writer.run {V : Type} (w : Writer V) (calls : Nat → List (String → Option V)) : Nat → Writer V
  | 0 => { w with time := w.time + 1 }
  | N + 1 => (w.run calls N).iteration (calls (N + 1))

/-- `model_update_and_export` (`experiments.py:653-701`) as far as writing goes: on the last element of a batch or of the data
the clock advances and everything except the keys `loss` and `n_processed_steps` is written, together with the items of the
loss dictionary (whose keys are loss-function names, none of them a sample name – so no row comes from it). -/
def Writer.updateAndExport {V : Type} (w : Writer V) (batch dataSize t : Nat) (kwargs : String → Option V) : Writer V :=
  if t % batch = 0 ∨ t = dataSize - 1 then
    { w with time := w.time + 1 }.writeData fun name => if name = "loss" ∨ name = "n_processed_steps" then none else kwargs name
  else w

/-- One epoch of the neural-network experiments (`experiments.py:2620-2706`): `t` ranges over the training data. -/
def Writer.epoch {V : Type} (w : Writer V) (batch dataSize : Nat) (kwargs : Nat → String → Option V) : Writer V :=
  (List.range dataSize).foldl (fun w t => w.updateAndExport batch dataSize t (kwargs t)) w

/-- `E` epochs; `kwargs e t` are the samples of epoch `e` at element `t`. -/
def Writer.epochs {V : Type} (w : Writer V) (batch dataSize : Nat) (kwargs : Nat → Nat → String → Option V) (E : Nat) : Writer V :=
  (List.range E).foldl (fun w e => w.epoch batch dataSize (kwargs e)) w

/-- The time attribute written with every dataset: `dims_mode__time = 'start_and_step'`, `dims__time = [write_start,
write_every]` (`experiments.py:553-554`, `581-582`, `643-644`): the iteration it assigns to row `r`. -/
def attributedTime (start every r : Nat) : Nat := start + r * every

/-! ## Metadata files -/

/-- A file system: the content of every path. -/
abbrev Files := String → Option (List Char)

def Files.set (f : Files) (p : String) (c : List Char) : Files := fun q => if q = p then some c else f q

/-- Which files a guarded write can leave behind: `open(path, 'w')` truncates, the content is written piece by piece
(`gensit/utils/misc_utils.py:272-276`, `284-288`, `298-300`); the flag is `true` when it ran to the end, otherwise the process stopped after some of
the pieces (a crash). -/
inductive GuardedWrite (path : String) (overwrite : Bool) (pieces : List (List Char)) : Files → Files → Bool → Prop
  /-- The file exists and may not be overwritten: nothing happens. -/
  | skip (f : Files) (h : (f path).isSome = true) (ho : overwrite = false) : GuardedWrite path overwrite pieces f f true
  /-- The file is truncated and the first `k` pieces are written; finished when that is all of them. -/
  | write (f : Files) (k : Nat) (hk : k ≤ pieces.length) (h : (f path).isSome = false ∨ overwrite = true) :
      GuardedWrite path overwrite pieces f (f.set path (pieces.take k).flatten) (decide (k = pieces.length))
  /-- The process stops before touching the file. -/
  | stop (f : Files) : GuardedWrite path overwrite pieces f f false

/-- Histories of guarded writes to any paths. `Outputs.write_metadata` (`gensit/outputs.py:959-968`) guards with
`exists and overwrite, or not exists`; `ContingencyTable.export` (`gensit/contingency_table/__init__.py:733-756`) with `not
exists or overwrite`; `export_markov_basis` (`gensit/contingency_table/MarkovBasis.py:570-597`) with `not isfile`, i.e.
`overwrite = false`. All three are this guard. -/
inductive WriteHistory (overwrite : Bool) : Files → Files → Prop
  | refl (f : Files) : WriteHistory overwrite f f
  | step (f g h : Files) (path : String) (pieces : List (List Char)) (fin : Bool) :
      WriteHistory overwrite f g → GuardedWrite path overwrite pieces g h fin → WriteHistory overwrite f h

/-! ## Grouping of samples -/

/-- A data array as far as grouping is concerned: its dimensions and its coordinates. -/
structure Sample where
  id : Nat
  dims : List String
  coords : String → Option (List Int)

/-- `set(a) == set(b)`. -/
def sameValues (a b : List Int) : Bool := a.all (fun x => b.contains x) && b.all (fun x => a.contains x)

/-- The comparison of a group's first member with a new sample along the shared dimensions (`gensit/outputs.py:1893-1898`).
A missing coordinate raises in the code (`None.values`); the model then says "no match" and the theorems assume presence. -/
def matchesGroup (shared : List String) (first new : Sample) : Bool :=
  shared.all fun k => match first.coords k, new.coords k with
    | some a, some b => sameValues a b
    | _, _ => false

/-- Append to the first matching group, or open a new one (`outputs.py:1890-1916`). -/
def joinGroup (shared : List String) (new : Sample) : List (List Sample) → List (List Sample)
  | [] => [[new]]
  | [] :: gs => [] :: joinGroup shared new gs
  | (first :: rest) :: gs =>
    if matchesGroup shared first new then (first :: rest ++ [new]) :: gs else (first :: rest) :: joinGroup shared new gs

/-- `DataCollection.group_sample` (`outputs.py:1863-1917`). `sharedDims` is the set of dimensions that must be shared (core
dimensions, `group_by`, input-related ones); the dimensions compared are those of the first sample of the first group. When
the first sample has no other dimension, nothing is merged. -/
def groupSample (sharedDims : List String) (groups : List (List Sample)) (new : Sample) : List (List Sample) :=
  match groups with
  | (first :: _) :: _ =>
    let shared := first.dims.filter fun d => sharedDims.contains d
    let nonShared := first.dims.filter fun d => !sharedDims.contains d
    if nonShared.isEmpty then groups ++ [[new]] else joinGroup shared new groups
  | _ => [[new]]

/-- `group_samples_sequentially` (`outputs.py:1920-`): one sample after the other. -/
def groupSamples (sharedDims : List String) (samples : List Sample) : List (List Sample) :=
  samples.foldl (groupSample sharedDims) []

/-! ## Progress batches -/

/-- `np.cumsum`. -/
def cumsum (acc : Nat) : List Nat → List Nat
  | [] => []
  | x :: xs => (acc + x) :: cumsum (acc + x) xs

/-- `define_sample_batch_sizes` (`gensit/experiments.py:424-431`). `store_progress` is a rational (the code's floating-point
products are not modelled); `np.floor(1/p)` is taken as the integer it equals. -/
def sampleBatches (p : ℚ) (N : Nat) : List Nat :=
  let size := (⌊p * N⌋).toNat
  let sizes := List.replicate (⌊1 / p⌋).toNat size
  let sizes := if sizes.sum < N then sizes ++ [N - sizes.sum] else sizes
  cumsum 0 sizes

end GeNSIT
