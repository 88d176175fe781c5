import Mathlib.Data.List.Sort
import Mathlib.Data.Rat.Defs
import Mathlib.Algebra.Order.Ring.Rat

/-!
# Figures

Model of the parts of `/repo/gensit/plot.py` that decide what a figure shows and where: collection of the records
(`data_plot`, `merge_plot_settings`), stacking order (`zorder`), subplots (`map_groups_to_axes`), axis limits
(`get_axes_limits`) and discrete ticks (`get_discrete_ticks`).  Drawing itself (matplotlib) is not modelled.
-/

namespace GeNSIT

/-! ### Collecting the records -/

/-- `d[k] = v` on the settings of one record. -/
def recPut {V : Type} : List (String × V) → String → V → List (String × V)
  | [], k, v => [(k, v)]
  | (k', v') :: rest, k, v => if k = k' then (k', v) :: rest else (k', v') :: recPut rest k v

/-- `plot_sett.update(...)` (`plot.py:1677-1682`). -/
def recUpdate {V : Type} (d : List (String × V)) (u : List (String × V)) : List (String × V) :=
  u.foldl (fun (d : List (String × V)) (e : String × V) => recPut d e.1 e.2) d

/-- The loop over the records of a folder (`plot.py:1669-1686`).  `extract` is `extract_plot_settings` (`none` =
exception, which ends the folder, `plot.py:1717-1720`).  Result: the settings appended to `plot_settings`, and `plot_sett`
after the loop (`none` = raised).  Simplification: the entry `outputs` is left out. -/
def collectFolder {M V : Type} (extract : M → Option (List (String × V))) :
    List (String × V) → List M → List (List (String × V)) × Option (List (String × V))
  | d, [] => ([], some d)
  | d, m :: ms =>
    match extract m with
    | none => ([], none)
    | some u =>
      let r := collectFolder extract (recUpdate d u) ms
      (recUpdate d u :: r.1, r.2)

/-- `merged_settings.setdefault(key, []).append(data)` (`plot.py:1406`). -/
def appendAt {V : Type} : List (String × List V) → String → V → List (String × List V)
  | [], k, v => [(k, [v])]
  | (k', l) :: rest, k, v => if k = k' then (k', l ++ [v]) :: rest else (k', l) :: appendAt rest k v

/-- The merging of a list of settings (`plot.py:1389-1413`). -/
def mergeRecords {V : Type} (ds : List (List (String × V))) : List (String × List V) :=
  ds.foldl (fun (m : List (String × List V)) (d : List (String × V)) =>
    d.foldl (fun (m : List (String × List V)) (e : String × V) => appendAt m e.1 e.2) m) []

/-- What is handed to the plotting function: the merged settings, or (`by_experiment`) the settings of one record. -/
inductive Figure (V : Type) where
  | merged (m : List (String × List V))
  | single (d : List (String × V))

/-- `data_plot` without stored data (`plot.py:1653-1745`): with `by_experiment` one figure per folder, from
`plot_sett`; otherwise one figure from all collected settings. -/
def dataPlot {M V : Type} (byExperiment : Bool) (extract : M → Option (List (String × V))) (folders : List (List M)) :
    List (Figure V) :=
  if byExperiment then
    folders.filterMap fun (ms : List M) => (collectFolder extract [] ms).2.map Figure.single
  else [.merged (mergeRecords (folders.flatMap fun (ms : List M) => (collectFolder extract [] ms).1))]

/-! ### Stacking order -/

/-- One component of the ordering tuple (`plot.py:1258-1261`). -/
def orderValue (asc : Bool) (v : ℚ) : ℚ := if asc then -v else v

/-- The ordering tuple of a record (`plot.py:1243-1263`). -/
def orderTuple (dirs : List Bool) (vs : List ℚ) : List ℚ := dirs.zipWith orderValue vs

/-- Comparison of two tuples, first component most significant. -/
def tupleLe : List ℚ → List ℚ → Bool
  | [], _ => true
  | _ :: _, [] => false
  | a :: as, b :: bs => decide (a < b) || (decide (a = b) && tupleLe as bs)

/-- `np.lexsort([values[:,i].ravel() for i in range(ndims)])` (`plot.py:1430-1432`): stable, and the *last* key is the
most significant. -/
def lexsort (tuples : List (List ℚ)) : List ℕ :=
  (List.range tuples.length).insertionSort fun (i j : ℕ) =>
    tupleLe (tuples.getD i []).reverse (tuples.getD j []).reverse = true

/-- `zorder` after merging: `merged_settings['zorder'][j] = len(sorted_indices) - i` (`plot.py:1438-1440`). -/
def zorderOf (tuples : List (List ℚ)) (j : ℕ) : ℕ := tuples.length - (lexsort tuples).idxOf j

/-! ### Discrete ticks and subplots -/

/-- First occurrences, in order (`np.unique(..., return_index = True)` and `sorted(unique_indices)`, `plot.py:314-317`). -/
def firstsOf : List String → List String
  | [] => []
  | a :: rest => a :: (firstsOf rest).filter fun (b : String) => decide (b ≠ a)

/-- Ticks of one type: their labels and, when a locator is set, their locations. -/
structure Ticks where
  unique : List String
  labels : List String
  locations : List ℚ

/-- What the `try` block makes of one tick type (`plot.py:287-346`): `none` = the program exits. -/
inductive TickResult where
  | exits
  | dropped
  | found (t : Ticks)

/-- `np.arange(start, start + L * step, step)[:L]` for a step that is not zero, in exact arithmetic. -/
def tickLocations (start step : ℚ) (L : ℕ) : List ℚ := (List.range L).map fun (t : ℕ) => start + (t : ℚ) * step

/-- One tick type (`plot.py:287-346`).  `col` is the column of the data (`none` if some record has no such entry), already
sorted and stringified; `locator` is `settings.get(tick_locator_var)`, `none` = not set; an entry `none` of it is a Python
`None`.  `reps` is the number of repetitions of the labels. -/
def tickType (col : Option (List String)) (locator : Option (List (Option (ℚ × ℚ)))) (i reps : ℕ) : TickResult :=
  match col with
  | none => .dropped
  | some c =>
    if firstsOf c = [] then .dropped
    else
      match locator with
      | none => .found ⟨firstsOf c, (List.replicate reps (firstsOf c)).flatten, []⟩
      | some l =>
        match l[i]? with
        | none => .dropped
        | some none => .exits
        | some (some (start, step)) =>
          if step = 0 then .exits
          else .found ⟨firstsOf c, (List.replicate reps (firstsOf c)).flatten,
            tickLocations start step (reps * (firstsOf c).length)⟩

/-- `len(ticks[i+1]['unique'])`; a dropped tick type has `[None]`. -/
def TickResult.count : TickResult → ℕ
  | .found t => t.unique.length
  | _ => 1

/-- The result of `get_discrete_ticks` for data that have major entries: the ticks and the map from (major, minor) to
locations.  Simplification: keys are pairs instead of the comma-joined string. -/
structure DiscreteTicks where
  major : Ticks
  minor : Option Ticks
  hashmap : List ((String × Option String) × ℚ)

/-- The map of locations (`plot.py:352-395`). -/
def tickHashmap (majors : List String) (minors : Option (List String)) (locator : Option (List (Option (ℚ × ℚ)))) :
    List ((String × Option String) × ℚ) :=
  majors.zipIdx.flatMap fun (a : String × ℕ) =>
    match minors with
    | some ms =>
      match locator with
      | some (some (s0, d0) :: some (_, d1) :: _) =>
        ms.zipIdx.map fun (b : String × ℕ) => ((a.1, some b.1), (b.2 : ℚ) * d1 + (a.2 : ℚ) * d0 + s0)
      | _ => []
    | none =>
      match locator with
      | some (some (s0, d0) :: _) => [((a.1, none), (a.2 : ℚ) * d0 + s0)]
      | _ => [((a.1, none), (a.2 : ℚ))]

/-- `get_discrete_ticks` (`plot.py:270-401`) on sorted and stringified columns; `none` = the program exits (or raises on
data without major entries, or on a locator without major entry). -/
def discreteTicks (majors : List String) (minors : Option (List String)) (locator : Option (List (Option (ℚ × ℚ)))) :
    Option DiscreteTicks :=
  match tickType minors locator 1 1 with
  | .exits => none
  | mi =>
    match tickType (some majors) locator 0 mi.count with
    | .found t =>
      match mi with
      | .found u => some ⟨t, some u, tickHashmap t.unique (some u.unique) locator⟩
      | _ => some ⟨t, none, tickHashmap t.unique none locator⟩
    | _ => none

/-- `hash_major_minor_var` (`misc_utils.py:1014-1029`). -/
def tickPosition (h : List ((String × Option String) × ℚ)) (major : String) (minor : Option String) : Option ℚ :=
  match minor with
  | some m => if m = "none" then h.lookup (major, none) else h.lookup (major, some m)
  | none => h.lookup (major, none)

/-- `map_groups_to_axes` for one direction (`plot.py:404-427`): `groups` are the stringified groups of the records,
`h` the map of `get_discrete_ticks`. -/
def axesOf (h : List ((String × Option String) × ℚ)) (groups : List String) (i : ℕ) : ℚ :=
  if h.isEmpty then 0
  else
    match groups[i]? with
    | none => 0
    | some g => (h.lookup (g, none)).getD 0

/-- The subplots drawn by `plot_simple` for `n` records (`plot.py:735-741`). -/
def drawnAxes (hy hx : List ((String × Option String) × ℚ)) (gy gx : List String) (n : ℕ) : List (ℚ × ℚ) :=
  (List.range n).map fun (i : ℕ) => (axesOf hy gy i, axesOf hx gx i)

/-- Whether the final loop over all subplots (`plot.py:836-839`, `group_axes_limits[(r,c)]`) succeeds. -/
def limitsComplete (hy hx : List ((String × Option String) × ℚ)) (drawn : List (ℚ × ℚ)) : Bool :=
  (List.range (max hy.length 1)).all fun (r : ℕ) =>
    (List.range (max hx.length 1)).all fun (c : ℕ) => drawn.contains ((r : ℚ), (c : ℚ))

/-! ### Axis limits -/

/-- A number or NaN. -/
abbrev NanQ := Option ℚ

/-- `np.nanmin` of a list (`plot.py:217-224`): NaN if all entries are NaN.  Simplification: on the empty list numpy raises;
here NaN (the theorems ask for a number in the data). -/
def nanMin : List NanQ → NanQ
  | [] => none
  | none :: rest => nanMin rest
  | some a :: rest =>
    match nanMin rest with
    | none => some a
    | some b => some (min a b)

/-- `np.nanmax` of a list (`plot.py:231-239`). -/
def nanMax : List NanQ → NanQ
  | [] => none
  | none :: rest => nanMax rest
  | some a :: rest =>
    match nanMax rest with
    | none => some a
    | some b => some (max a b)

/-- Python's `min(x, y)`: `y` if `y < x`, else `x` (comparisons with NaN are false). -/
def pyMin (x y : NanQ) : NanQ :=
  match x, y with
  | none, _ => none
  | some a, none => some a
  | some a, some b => if b < a then some b else some a

/-- Python's `max(x, y)`. -/
def pyMax (x y : NanQ) : NanQ :=
  match x, y with
  | none, _ => none
  | some a, none => some a
  | some a, some b => if b > a then some b else some a

/-- The limits of one variable on one subplot: each `none` (not set yet, Python `None`) or a number or NaN. -/
structure AxisLimits where
  lo : Option NanQ
  hi : Option NanQ

/-- The limits given for the subplot (`plot.py:188-193`): the one with its index, or the first when there are fewer. -/
def limitsFor (given : List (Option ℚ × Option ℚ)) (axesIndex : ℕ) : Option (Option ℚ × Option ℚ) :=
  if axesIndex ≥ given.length then given[0]? else given[axesIndex]?

/-- `get_axes_limits` for a continuous variable and one record (`plot.py:194-266`).  `before` are the limits of the subplot
so far (`none` = not present).  The initial `±inf` is represented by taking the minimum / maximum of the data alone. -/
def axesLimits (given : Option ℚ × Option ℚ) (before : Option AxisLimits) (data : List NanQ) : AxisLimits :=
  let cur := before.getD ⟨given.1.map some, given.2.map some⟩
  if given.1 = none ∨ given.2 = none ∨ cur.lo = none ∨ cur.hi = none then
    ⟨some (match cur.lo with | none => nanMin data | some b => pyMin (nanMin data) b),
     some (match cur.hi with | none => nanMax data | some b => pyMax (nanMax data) b)⟩
  else cur

/-- The limits of a subplot after drawing the records one by one (`plot.py:822-833`). -/
def limitsAfter (given : Option ℚ × Option ℚ) (datas : List (List NanQ)) : Option AxisLimits :=
  datas.foldl (fun (b : Option AxisLimits) (d : List NanQ) => some (axesLimits given b d)) none

end GeNSIT
