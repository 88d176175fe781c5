import Mathlib.Order.Basic
import Mathlib.Data.Int.Order.Basic

/-!
# Model of the small utilities: range checks, range strings, (de)serialisation, chunking

Strings are lists of characters. Python exceptions are the value `none` (or the constructor `crash` where the caller
distinguishes outcomes).
-/

namespace GeNSIT

/-! ## `in_range` -/

/-- A number as `in_range` sees it: `None`, a non-finite float, or a finite number. -/
inductive NumVal (α : Type) where
  | missing
  | nonFinite
  | num (x : α)

/-- `in_range(v, limits, allow_nan, inclusive)` (`gensit/utils/misc_utils.py:969-977`), line by line. The upper bound of
the exclusive test compares with `limits[0]`, as the code does; `none` is the `TypeError` of comparing with `None`.
`and` short-circuits. Strings (for which `np.isfinite` raises) are not modelled. -/
def inRange {α : Type} [LinearOrder α] (v : NumVal α) (lo hi : Option α) (allowNan inclusive : Bool) : Option Bool :=
  match v with
  | .missing => some allowNan
  | .nonFinite => some allowNan
  | .num x =>
    let within := match lo with
      | none => true
      | some l => if inclusive then decide (l ≤ x) else decide (l < x)
    match hi with
    | none => some within
    | some h =>
      if within = false then some false
      else if inclusive then some (decide (x ≤ h))
      else match lo with
        | none => none
        | some l => some (decide (x < l))

/-- `PrimitiveEntry.check_range` (`gensit/utils/config_data_structures.py:91-107`) when the schema has a `valid-range`:
`true` when no `InvalidRangeException` is raised (an exception inside `in_range` is turned into one by the bare `except`). -/
def checkRange {α : Type} [LinearOrder α] (v : NumVal α) (lo hi : Option α) (allowNan inclusive : Bool) : Bool :=
  inRange v lo hi allowNan inclusive == some true

/-! ## Text -/

/-- `s.split(sep)` for a one-character separator. -/
def pySplit (sep : Char) : List Char → List (List Char)
  | [] => [[]]
  | c :: cs =>
    if c = sep then [] :: pySplit sep cs
    else match pySplit sep cs with
      | [] => [[c]]
      | p :: ps => (c :: p) :: ps

/-- `sep.join(pieces)` for a one-character separator. -/
def pyJoin (sep : Char) : List (List Char) → List Char
  | [] => []
  | [p] => p
  | p :: q :: ps => p ++ sep :: pyJoin sep (q :: ps)

/-- Value of a digit string. -/
def natOfDigits (cs : List Char) : Nat := cs.foldl (fun acc c => 10 * acc + (c.toNat - 48)) 0

/-- A nonempty string of ASCII digits as a number. -/
def pyNat (cs : List Char) : Option Nat :=
  if cs.isEmpty then none else if cs.all Char.isDigit then some (natOfDigits cs) else none

/-- `int(s)`: an optional sign followed by ASCII digits; anything else raises. Simplification: surrounding white space and
underscores, which Python accepts, are not modelled. -/
def pyInt (cs : List Char) : Option Int :=
  match cs with
  | '-' :: ds => (pyNat ds).map fun n : Nat => -(n : Int)
  | '+' :: ds => (pyNat ds).map fun n : Nat => (n : Int)
  | ds => (pyNat ds).map fun n : Nat => (n : Int)

/-- The character of a digit below ten. -/
def digitChar (d : Nat) : Char := Char.ofNat (48 + d)

/-- `str(n)` for a natural number: decimal digits. -/
def showNat (n : Nat) : List Char :=
  if n < 10 then [digitChar n] else showNat (n / 10) ++ [digitChar (n % 10)]
termination_by n

/-- `str(z)` for an integer. -/
def showInt (z : Int) : List Char := if z < 0 then '-' :: showNat z.natAbs else showNat z.natAbs

/-! ## Range strings -/

/-- The nearest IEEE single-precision value of a natural number (round half to even), itself an integer. Exponent
overflow is not modelled (the caller rejects everything from `2^31` on). -/
def f32OfNat (n : Nat) : Nat :=
  let e := Nat.log2 n - 23
  let q := n / 2 ^ e
  let r := n % 2 ^ e
  if 2 * r < 2 ^ e then q * 2 ^ e
  else if 2 ^ e < 2 * r then (q + 1) * 2 ^ e
  else if r = 0 then q * 2 ^ e
  else if q % 2 = 0 then q * 2 ^ e else (q + 1) * 2 ^ e

/-- `string_to_numeric(s)` (`gensit/utils/misc_utils.py:1053-1056`) on integer literals: the value goes through
`np.float32` and comes back as an `np.int32` when it fits. `none` = an exception, a fractional number, or a value outside
`np.int32` (those results are floats and are not modelled). -/
def stringToNumeric (s : List Char) : Option Int :=
  match pyInt s with
  | none => none
  | some z =>
    let f : Int := if z < 0 then -(f32OfNat z.natAbs : Int) else (f32OfNat z.natAbs : Int)
    if -(2 ^ 31) ≤ f ∧ f < 2 ^ 31 then some f else none

/-- `numpy.arange(start, stop, step)` on integers: `ceil((stop - start) / step)` values, none if that is negative;
`none` = `ZeroDivisionError`. -/
def arange (start stop step : Int) : Option (List Int) :=
  if step = 0 then none
  else
    let n := if 0 < step then (stop - start + step - 1) / step else (start - stop - step - 1) / (-step)
    some ((List.range n.toNat).map fun k : Nat => start + step * (k : Int))

/-- Outcome of parsing one entry of a custom list. -/
inductive Parsed where
  /-- A list of values; `parsing_success = True`. -/
  | values (xs : List Int)
  /-- `([], False)`: later rejected by `check_parsing`. -/
  | rejected
  /-- An exception: the constructor prints it and exits. -/
  | crash
  deriving DecidableEq

def Parsed.ofOption : Option (List Int) → Parsed
  | none => .crash
  | some xs => .values xs

/-- `s.count(sub) > 0`: the substring test `"repeat" in data`. -/
def hasSub (sub : List Char) : List Char → Bool
  | [] => sub.isEmpty
  | c :: cs => sub.isPrefixOf (c :: cs) || hasSub sub cs

/-- `CustomList._parse` on a string (`gensit/utils/config_data_structures.py:597-630`). A string with neither `:` nor
`repeat` falls off the end of the function, so the caller's indexing or unpacking of `None` raises. -/
def parseEntry (s : List Char) (inclusive : Bool) : Parsed :=
  if ':' ∈ s then
    match (pySplit ':' s).mapM stringToNumeric with
    | none => .crash
    | some [a, b] => .ofOption (arange a (if inclusive then b + 1 else b) 1)
    | some [a, b, st] => .ofOption (arange a (if inclusive then b + 1 else b) st)
    | some _ => .rejected
  else if hasSub "repeat".toList s then
    match pySplit ',' ((pySplit ')' ((pySplit '(' s).getLastD [])).headD []) with
    | [num, reps] =>
      match stringToNumeric num, stringToNumeric reps with
      | some x, some r => if r < 0 then .crash else .values (List.replicate r.toNat x)
      | _, _ => .crash
    | _ => .crash
  else .crash

/-- One element of the list given by the user: a string or a number. -/
inductive RawEntry where
  | text (s : List Char)
  | number (z : Int)

/-- `_parse` on one element (`config_data_structures.py:597-630`): non-strings are passed through. -/
def parseRaw (inclusive : Bool) : RawEntry → Parsed
  | .text s => parseEntry s inclusive
  | .number z => .values [z]

/-- `CustomList.parse` on an iterable (`config_data_structures.py:583-595`): every element is parsed, the results are
flattened and the success flags are conjoined. -/
def parseList (inclusive : Bool) : List RawEntry → Parsed
  | [] => .values []
  | e :: es =>
    match parseRaw inclusive e with
    | .crash => .crash
    | .rejected => match parseList inclusive es with
      | .crash => .crash
      | _ => .rejected
    | .values xs => match parseList inclusive es with
      | .crash => .crash
      | .rejected => .rejected
      | .values ys => .values (xs ++ ys)

/-! ## Chunks -/

/-- `list(divide_chunks(l, n))` (`gensit/utils/misc_utils.py:1156-1160`): slices `l[i:i+n]` for `i` in
`range(0, len(l), n)`; `none` = the `ValueError` of a zero step. -/
def divideChunks {α : Type} (l : List α) (n : Nat) : Option (List (List α)) :=
  if n = 0 then none
  else some ((List.range ((l.length + n - 1) / n)).map fun k => (l.drop (k * n)).take n)

/-- The jobs submitted by `ExperimentSweep.run_concurrent` (`gensit/experiments.py:3820-3862`): for every chunk, for every
configuration in it, `(chunk_id, instance, configuration)` – the instance number restarts in every chunk. -/
def concurrentJobs {α : Type} (configs : List α) (chunkSize : Nat) : Option (List (Nat × Nat × α)) :=
  (divideChunks configs chunkSize).map fun chunks =>
    (chunks.zipIdx.map fun c => c.1.zipIdx.map fun x => (c.2, x.2, x.1)).flatten

/-! ## Tables as text and as dictionaries -/

/-- `table_to_str` (`gensit/utils/misc_utils.py:916-917`); a two-dimensional array is its list of rows. -/
def tableToStr (rows : List (List Int)) : List Char := pyJoin ',' (rows.flatten.map showInt)

/-- `str_to_table` (`misc_utils.py:919-923`) for two dimensions; `none` = a failed assertion or conversion. -/
def strToTable (s : List Char) (d0 d1 : Nat) : Option (List (List Int)) :=
  match (pySplit ',' s).mapM pyInt with
  | none => none
  | some data => if data.length = d0 * d1 then divideChunks data d1 else none

/-- `array_to_f` on a two-dimensional array (`misc_utils.py:903-909`): cell ↦ value in row-major order. -/
def arrayToF (rows : List (List Int)) : List ((Nat × Nat) × Int) :=
  (rows.zipIdx.map fun r => r.1.zipIdx.map fun x => ((r.2, x.2), x.1)).flatten

/-- `array_to_f` on a vector: one row (`axis = 0`) or one column (`misc_utils.py:904-907`). -/
def vectorToF (v : List Int) (axis : Nat) : List ((Nat × Nat) × Int) :=
  v.zipIdx.map fun x => (if axis = 0 then (0, x.2) else (x.2, 0), x.1)

/-- `astype('int32')` of an integral double: wraps modulo `2^32`. -/
def toInt32 (z : Int) : Int := (z + 2 ^ 31) % 2 ^ 32 - 2 ^ 31

/-- The value left at a cell after writing the entries of a dictionary in order into zeros (`misc_utils.py:890-903`). -/
def cellValue (f : List ((Nat × Nat) × Int)) (i j : Nat) : Int :=
  match f.reverse.find? (fun kv => decide (kv.1 = (i, j))) with
  | some kv => toInt32 kv.2
  | none => 0

/-- `f_to_array(f, shape)` (`misc_utils.py:883-905`). Empty dictionaries raise (`zip(*[])`); an index outside the array
raises. The three branches of the code write the same cells (in the first two one of the index lists is constantly zero),
so they are modelled by one. Without a shape the array is `(max row + 1) × (max column + 1)`. Keys are natural numbers;
values are small enough to be exact doubles. -/
def dictToArray (f : List ((Nat × Nat) × Int)) (shape : Option (Nat × Nat)) : Option (List (List Int)) :=
  if f = [] then none
  else
    let sh := shape.getD (((f.map fun kv => kv.1.1).foldl max 0) + 1, ((f.map fun kv => kv.1.2).foldl max 0) + 1)
    if f.all (fun kv => decide (kv.1.1 < sh.1) && decide (kv.1.2 < sh.2)) then
      some ((List.range sh.1).map fun i => (List.range sh.2).map fun j => cellValue f i j)
    else none

/-- `tuple_to_str` of a pair of Python integers (`misc_utils.py:361-362`): `str` with the blanks removed. -/
def tupleToStr (t : Int × Int) : List Char := '(' :: showInt t.1 ++ ',' :: showInt t.2 ++ [')']

/-- `str_to_tuple` (`misc_utils.py:365-366`). -/
def strToTuple (s : List Char) : Option (Int × Int) :=
  match (pySplit '(' s)[1]?, (pySplit ',' s)[1]? with
  | some a, some b =>
    match pyInt ((pySplit ',' a).headD []), pyInt ((pySplit ')' b).headD []) with
    | some x, some y => some (x, y)
    | _, _ => none
  | _, _ => none

end GeNSIT
