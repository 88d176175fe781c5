import Verif.Utils.Model
import Mathlib.Algebra.Order.Ring.Rat

/-!
# Model of the schema checks of configuration values

File: gensit/utils/config_data_structures.py unless said otherwise.  `false` stands for an exception in the
constructor or in `check` (the caller, `Config.validate`, then stops the program).
-/

namespace GeNSIT

/-- A configuration value as read from a JSON or TOML file.  Floats are rationals, NaN or an infinity. -/
inductive PyVal where
  | none
  | bool (b : Bool)
  | int (z : Int)
  | float (q : Rat)
  | nan
  | inf
  | str (s : String)
  | list (l : List PyVal)
  | dict (l : List (String × PyVal))

/-- A schema: a JSON dictionary. -/
abbrev Schema := List (String × PyVal)

/-- `bool(v)`. -/
def PyVal.truthy : PyVal → Bool
  | .none => false
  | .bool b => b
  | .int z => z != 0
  | .float q => q != 0
  | .nan => true
  | .inf => true
  | .str s => s != ""
  | .list l => !l.isEmpty
  | .dict l => !l.isEmpty

/-- The number a value counts as in comparisons. -/
def PyVal.number : PyVal → Option Rat
  | .bool b => some (if b then 1 else 0)
  | .int z => some z
  | .float q => some q
  | _ => Option.none

/-- `a == b` for the values a scope list can hold: numbers compare by value (booleans count as 0 and 1), strings by
content, `None` with itself.  Lists and dictionaries inside a scope list are not modelled (never equal). -/
def PyVal.eqv (a b : PyVal) : Bool :=
  match a, b with
  | .str s, .str t => s == t
  | .none, .none => true
  | a, b => match a.number, b.number with
    | some x, some y => x == y
    | _, _ => false

/-- `schema.get(key, default)` used as a flag. -/
def Schema.flag (sch : Schema) (key : String) (dflt : Bool) : Bool :=
  match sch.lookup key with
  | Option.none => dflt
  | some v => v.truthy

/-- What the programs knows of the world: which paths exist below the root, and Python's `str`. -/
structure World where
  pathExists : String → Bool
  pyStr : PyVal → String

/-- The classes a `dtype` can name (lines 13-37). -/
inductive Kind where
  | bool | int | float | str | strInt | file | directory | entry | list | list2D | customList | dict
  deriving DecidableEq

/-- `dtype` with its first letter capitalised, looked up in the module (lines 13-37).  Other names bound in the module
(`any`, `iterable`, `numeric`, …) are not modelled; they do not occur in the schema files. -/
def kindOf : String → Option Kind
  | "bool" | "Bool" => some .bool
  | "int" | "Int" => some .int
  | "float" | "Float" => some .float
  | "str" | "Str" => some .str
  | "strInt" | "StrInt" => some .strInt
  | "file" | "File" => some .file
  | "directory" | "Directory" => some .directory
  | "entry" | "Entry" => some .entry
  | "list" | "List" => some .list
  | "list2D" | "List2D" => some .list2D
  | "customList" | "CustomList" => some .customList
  | "dict" | "Dict" => some .dict
  | _ => Option.none

/-- The class for a schema; `none`: the constructor raises. -/
def Schema.kind (sch : Schema) : Option Kind :=
  match sch.lookup "dtype" with
  | some (.str s) => kindOf s
  | _ => Option.none

/-- `isinstance(v, self.dtype)`; note that booleans are instances of `int`. -/
def isInst : Kind → PyVal → Bool
  | .bool, .bool _ => true
  | .int, .int _ => true
  | .int, .bool _ => true
  | .float, .float _ => true
  | .float, .nan => true
  | .float, .inf => true
  | .str, .str _ => true
  | .strInt, .str _ => true
  | .file, .str _ => true
  | .directory, .str _ => true
  | .entry, _ => true
  | .list, .list _ => true
  | .list2D, .list _ => true
  | .customList, .list _ => true
  | .dict, .dict _ => true
  | _, _ => false

/-- `check_type` (lines 54-71): `allow-nan` lets every type through. -/
def typeOk (k : Kind) (sch : Schema) (v : PyVal) : Bool := isInst k v || sch.flag "allow-nan" false

/-- A value as `in_range` sees it; `none`: `np.isfinite` raises (strings) or the truth value of an array is taken
(lists; always treated as an exception). -/
def PyVal.toNumVal : PyVal → Option (NumVal Rat)
  | .none => some .missing
  | .nan => some .nonFinite
  | .inf => some .nonFinite
  | v => (v.number).map .num

/-- One limit of a range: `None` or a number. -/
def PyVal.limit : PyVal → Option (Option Rat)
  | .none => some Option.none
  | v => (v.number).map some

/-- `limits[0]`, `limits[1]`. -/
def PyVal.limits : PyVal → Option (Option Rat × Option Rat)
  | .list (a :: b :: _) => match a.limit, b.limit with
    | some lo, some hi => some (lo, hi)
    | _, _ => Option.none
  | _ => Option.none

/-- `check_range` (lines 91-107). -/
def rangeOk (sch : Schema) (v : PyVal) : Bool :=
  match sch.lookup "valid-range" with
  | Option.none => true
  | some (.str "invalid") => true
  | some r => match r.limits, v.toNumVal with
    | some (lo, hi), some x => checkRange x lo hi (sch.flag "allow-nan" false) (sch.flag "inclusive" true)
    | _, _ => false

/-- `check_scope` (lines 109-131).  The `contains` test, which occurs in no schema file, is not modelled. -/
def scopeOk (sch : Schema) (v : PyVal) : Bool :=
  match sch.lookup "is-any-of" with
  | some (.list (a :: l)) => (a :: l).any fun w => v.eqv w
  | _ => true

/-- `check_finiteness` (lines 169-181). -/
def finiteOk (sch : Schema) (v : PyVal) : Bool :=
  if sch.flag "is-infinite" true then true
  else match v.toNumVal with
    | some (.num _) => true
    | _ => false

/-- `check_path_exists` (lines 252-266): asked only when one of four flags is set. -/
def existsOk (w : World) (sch : Schema) (v : PyVal) : Bool :=
  if sch.flag "path-exists" false || sch.flag "file-exists" false || sch.flag "directory-exists" false ||
      sch.flag "exists" false then
    match v with
    | .str s => w.pathExists s
    | _ => false
  else true

/-- `os.path.isfile(v)`, whose result is ignored (lines 268-292): it raises for values that are no path. -/
def pathLike : PyVal → Bool
  | .str _ => true
  | .int _ => true
  | .bool _ => true
  | _ => false

/-- `s.endswith(t)`. -/
def endsWith (s t : String) : Bool := t.toList.isSuffixOf s.toList

/-- `check_extension` (lines 294-308): when `extension` is present it is *replaced* by `file-extension`. -/
def extensionOk (sch : Schema) (v : PyVal) : Bool :=
  match sch.lookup "extension" with
  | Option.none => true
  | some .none => true
  | some _ => match sch.lookup "file-extension" with
    | some (.str e) => match v with
      | .str s => endsWith s ("." ++ e)
      | _ => false
    | _ => true

/-- `check` of the primitive classes (lines 88-89, 183-191, 220-224, 234-242, 322-329, 339-343).  `Bool` inherits the
empty `check` of `PrimitiveEntry`. -/
def checkPrim (w : World) : Kind → Schema → PyVal → Bool
  | .bool, _, _ => true
  | .int, sch, v => typeOk .int sch v && finiteOk sch v && rangeOk sch v && scopeOk sch v
  | .float, sch, v => typeOk .float sch v && finiteOk sch v && rangeOk sch v && scopeOk sch v
  | .str, sch, v => typeOk .str sch v && scopeOk sch v
  | .strInt, sch, v => typeOk .strInt sch v && match v with
    | .str s => match pyInt s.toList with
      | some z => rangeOk sch (.int z) && scopeOk sch (.int z)
      | Option.none => false
    | .int z => rangeOk sch (.int z) && scopeOk sch (.int z)
    | _ => false
  | .file, sch, v => typeOk .file sch v && existsOk w sch v && pathLike v && extensionOk sch v
  | .directory, sch, v => typeOk .directory sch v && existsOk w sch v && pathLike v
  | .entry, _, _ => true
  | _, _, _ => false

/-- The schema entries dropped for the elements (lines 433-434). -/
def droppedKeys : List String := ["dtype", "sweepable", "target_name", "optional"]

/-- The prefixes removed once from a key (lines 354, 435-441). -/
def schemaPrefixes : List String := ["dict-", "list-", "list2D-", "customList-", "customDict-"]

/-- Remove the first of the given prefixes that the key starts with. -/
def stripKey : List String → String → String
  | [], k => k
  | p :: ps, k => if p.toList.isPrefixOf k.toList then String.ofList (k.toList.drop p.toList.length) else stripKey ps k

/-- `d[k] = v` on an association list: the position of an existing key is kept. -/
def Schema.set : Schema → String → PyVal → Schema
  | [], k, v => [(k, v)]
  | (k', v') :: r, k, v => if k' = k then (k', v) :: r else (k', v') :: Schema.set r k v

/-- The schema of the elements (lines 429-446, and the same in `List2D`, `CustomList`, `Dict`). -/
def Schema.inner (sch : Schema) : Schema :=
  sch.foldl (fun acc e => if droppedKeys.contains e.1 then acc else acc.set (stripKey schemaPrefixes e.1) e.2) []

/-- `{k.replace(pre,'',1): v for k,v in schema.items() if k.startswith(pre)}` (lines 681-684). -/
def Schema.sub (pre : String) (sch : Schema) : Schema :=
  sch.foldl (fun acc e => if pre.toList.isPrefixOf e.1.toList then acc.set (stripKey [pre] e.1) e.2 else acc) []

/-- An instantiated value. -/
inductive Entry where
  | prim (k : Kind) (sch : Schema) (v : PyVal)
  | list (sch : Schema) (es : List Entry)
  | list2D (sch : Schema) (rows : List (List Entry))
  | custom (sch : Schema) (parsed : Bool) (es : List Entry)
  | dict (sch : Schema) (es : List (Entry × Entry))

/-- `string_to_numeric`, `arange` and `repeat` of `CustomList._parse` on one element (lines 583-630), through the
model of range strings in `Verif.Utils.Model`.  `none`: the constructor prints and exits. -/
def parseCustom (inclusive : Bool) : List PyVal → Option (List PyVal × Bool)
  | [] => some ([], true)
  | .str s :: l => match parseEntry s.toList inclusive with
    | .crash => Option.none
    | .rejected => (parseCustom inclusive l).map fun r => (r.1, false)
    | .values xs => (parseCustom inclusive l).map fun r => (xs.map .int ++ r.1, r.2)
  | v :: l => (parseCustom inclusive l).map fun r => (v :: r.1, r.2)

/-- A primitive entry, or `none` for the other classes and unknown names: the classes of elements that are not
containers. -/
def instPrim (sch : Schema) (v : PyVal) : Option Entry :=
  match sch.kind with
  | some .list | some .list2D | some .customList | some .dict | Option.none => Option.none
  | some k => some (.prim k sch v)

/-- A custom list of primitives (lines 542-577). -/
def instCustom (sch : Schema) (v : PyVal) : Option Entry :=
  let parsed := match v with
    | .str s => match parseEntry s.toList (sch.flag "inclusive" true) with
      | .crash => Option.none
      | .rejected => some ([], false)
      | .values xs => some (xs.map PyVal.int, true)
    | .list l => parseCustom (sch.flag "inclusive" true) l
    | _ => Option.none
  match parsed with
  | Option.none => Option.none
  | some (l, ok) => (l.mapM (instPrim sch.inner)).map (.custom sch.inner ok)

mutual
/-- `instantiate_data_type` (lines 13-37) with the constructors of the classes.  Simplifications: where `allow-nan` lets a
value that is not a list (dictionary) pass the type check of a list (dictionary) class, the code goes on to iterate
over it – an exception for numbers and `None`; strings, iterated letter by letter, are also treated as an exception. -/
def instantiate (sch : Schema) : PyVal → Option Entry
  | .list l => match sch.kind with
    | some .list => (instList sch.inner l).map (.list sch.inner)
    | some .list2D => (instRows sch.inner l).map (.list2D sch.inner)
    | some .customList => instCustom sch (.list l)
    | some .dict => Option.none
    | _ => instPrim sch (.list l)
  | .dict l => match sch.kind with
    | some .dict =>
      let s := sch.inner
      let ks := s.sub "key-"
      let vs := s.sub "value-"
      (instItems ks vs l).map (.dict s)
    | some .list | some .list2D | some .customList => Option.none
    | _ => instPrim sch (.dict l)
  | v => match sch.kind with
    | some .customList => instCustom sch v
    | _ => instPrim sch v
/-- `[instantiate_data_type(val, self.schema, key_path) for val in data]`. -/
def instList (sch : Schema) : List PyVal → Option (List Entry)
  | [] => some []
  | v :: l => match instantiate sch v, instList sch l with
    | some e, some es => some (e :: es)
    | _, _ => Option.none
/-- The rows of `List2D` (line 489); iterating over a row that is not a list raises. -/
def instRows (sch : Schema) : List PyVal → Option (List (List Entry))
  | [] => some []
  | .list r :: l => match instList sch r, instRows sch l with
    | some e, some es => some (e :: es)
    | _, _ => Option.none
  | _ :: _ => Option.none
/-- The items of `Dict` (lines 680-701): with a `value-schema` every key has its own schema (and an unlisted key gets the
whole dictionary of schemas, which has no `dtype`), otherwise all values have the same one. -/
def instItems (ks vs : Schema) : List (String × PyVal) → Option (List (Entry × Entry))
  | [] => some []
  | (k, v) :: l =>
    let vsch := match vs.lookup "schema" with
      | some (.dict d) => match d.lookup k with
        | some (.dict s) => s
        | _ => d
      | _ => vs
    match instPrim ks (.str k), instantiate vsch v, instItems ks vs l with
    | some ke, some ve, some es => some ((ke, ve) :: es)
    | _, _, _ => Option.none
end

mutual
/-- `is_null` (gensit/utils/misc_utils.py:979-986). -/
def PyVal.isNull : PyVal → Bool
  | .none => true
  | .nan => true
  | .str s => s == ""
  | .list l => anyNull l
  | .dict l => l.any fun e => e.1 == ""
  | _ => false
def anyNull : List PyVal → Bool
  | [] => false
  | v :: l => v.isNull || anyNull l
end

/-- `schema['default-value'] if is_null(v) else v`; `none`: `KeyError`. -/
def orDefault (sch : Schema) (v : PyVal) : Option PyVal :=
  if v.isNull then sch.lookup "default-value" else some v

/-- `value()` of a primitive (lines 51-52, 310-311). -/
def primValue : Kind → Schema → PyVal → Option PyVal
  | .file, sch, .str s => if s == "" then sch.lookup "default-value" else some (.str s)
  | .file, sch, .list l => if l.isEmpty then sch.lookup "default-value" else some (.list l)
  | .file, sch, .dict l => if l.isEmpty then sch.lookup "default-value" else some (.dict l)
  | .file, _, _ => Option.none
  | .directory, sch, .str s => if s == "" then sch.lookup "default-value" else some (.str s)
  | .directory, sch, .list l => if l.isEmpty then sch.lookup "default-value" else some (.list l)
  | .directory, sch, .dict l => if l.isEmpty then sch.lookup "default-value" else some (.dict l)
  | .directory, _, _ => Option.none
  | _, _, v => some (if v.isNull then .none else v)

mutual
/-- `value()` (lines 51-52, 310-311, 449-450, 496-497, 579-580, 703-704).  The keys of a dictionary value are strings here
(a `strInt` key whose `check` was called is a number in the code). -/
def Entry.value : Entry → Option PyVal
  | .prim k sch v => primValue k sch v
  | .list sch es => (valueList sch es).map .list
  | .custom sch _ es => (valueList sch es).map .list
  | .list2D sch rows => (valueRows sch rows).map .list
  | .dict _ es => (valueItems es).map .dict
def valueList (sch : Schema) : List Entry → Option (List PyVal)
  | [] => some []
  | e :: es => match e.value, valueList sch es with
    | some v, some l => (orDefault sch v).map (· :: l)
    | _, _ => Option.none
def valueRows (sch : Schema) : List (List Entry) → Option (List PyVal)
  | [] => some []
  | r :: rs => match valueList sch r, valueRows sch rs with
    | some v, some l => some (.list v :: l)
    | _, _ => Option.none
def valueItems : List (Entry × Entry) → Option (List (String × PyVal))
  | [] => some []
  | (k, e) :: es => match k.value, e.value, valueItems es with
    | some (.str s), some v, some l => some ((s, v) :: l)
    | _, _, _ => Option.none
end

/-- The length test `check_length` (lines 363-386). -/
def lengthOk (sch : Schema) (n : Nat) : Bool :=
  match sch.lookup "length" with
  | Option.none => true
  | some .none => true
  | some (.int z) => decide ((n : Int) = z)
  | some (.bool b) => decide ((n : Int) = if b then 1 else 0)
  | some (.float q) => decide ((n : Rat) = q)
  | some r => match r.limits with
    | some (lo, hi) => checkRange (.num (n : Rat)) lo hi false true
    | Option.none => false

/-- `check_uniqueness` (lines 388-403): the values are compared as strings. -/
def uniqueOk (w : World) (sch : Schema) (es : List Entry) : Bool :=
  if sch.flag "unique-vals" false then
    match es.mapM Entry.value with
    | Option.none => false
    | some vs => decide ((vs.map w.pyStr).Nodup)
  else true

mutual
/-- What `check_elements` (lines 405-415) does with one element: containers are only *iterated over* – their own `check` is
not called, and iterating over a dictionary yields its keys. -/
def checkElem (w : World) : Entry → Bool
  | .prim k sch v => checkPrim w k sch v
  | .list _ es => checkElems w es
  | .custom _ _ es => checkElems w es
  | .list2D _ rows => checkRows w rows
  | .dict _ es => checkKeys w es
def checkElems (w : World) : List Entry → Bool
  | [] => true
  | e :: es => checkElem w e && checkElems w es
def checkRows (w : World) : List (List Entry) → Bool
  | [] => true
  | r :: rs => checkElems w r && checkRows w rs
def checkKeys (w : World) : List (Entry × Entry) → Bool
  | [] => true
  | (k, _) :: es => checkElem w k && checkKeys w es
end

/-- `check_dims` (lines 499-532).  A ragged table has no two-dimensional shape, and `shape` raises. -/
def dimsOk (sch : Schema) (rows : List (List Entry)) : Bool :=
  match sch.lookup "nrows", sch.lookup "ncols" with
  | some (.int n), some (.int m) =>
    decide ((rows.length : Int) = n) && !rows.isEmpty && rows.all fun r => decide ((r.length : Int) = m)
  | some (.list a), some (.list b) =>
    match (PyVal.list a).limits, (PyVal.list b).limits, rows with
    | some (lo, hi), some (lo', hi'), r :: rs =>
      rs.all (fun r' => r'.length == r.length) && checkRange (.num (rows.length : Rat)) lo hi false true &&
        checkRange (.num (r.length : Rat)) lo' hi' false true
    | _, _, _ => false
  | some (.list a), some (.int _) =>
    match (PyVal.list a).limits, rows with
    | some (lo, hi), r :: rs =>
      rs.all (fun r' => r'.length == r.length) && checkRange (.num (rows.length : Rat)) lo hi false true
    | _, _ => false
  | some (.int _), some (.list b) =>
    match (PyVal.list b).limits, rows with
    | some (lo', hi'), r :: rs =>
      rs.all (fun r' => r'.length == r.length) && checkRange (.num (r.length : Rat)) lo' hi' false true
    | _, _ => false
  | _, _ => true

/-- `check` of an instantiated value (lines 452-460, 534-539, 644-651, 707-717). -/
def Entry.check (w : World) : Entry → Bool
  | .prim k sch v => checkPrim w k sch v
  | .list sch es => lengthOk sch es.length && uniqueOk w sch es && checkElems w es
  | .list2D sch rows => dimsOk sch rows && checkRows w rows
  | .custom sch ok es => ok && lengthOk sch es.length && checkElems w es
  | .dict sch es => lengthOk sch es.length && uniqueOk w sch (es.map (·.1)) && uniqueOk w sch (es.map (·.2)) &&
      checkElems w (es.map (·.1)) && checkElems w (es.map (·.2))

/-- A value passes: it can be instantiated and its `check` does not raise (gensit/config.py:871-892, 900-945). -/
def passes (w : World) (sch : Schema) (v : PyVal) : Bool :=
  match instantiate sch v with
  | Option.none => false
  | some e => e.check w

end GeNSIT
