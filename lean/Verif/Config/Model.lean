/-!
# Nested settings

Model of the settings tree of `/repo/gensit/config.py` (`path_find`, `path_exists`, `path_get`, `path_set`,
`path_modify`, `path_delete`, `update`) and of the nested-dictionary helpers of
`/repo/gensit/utils/misc_utils.py` (`deep_get`, `deep_update`, `deep_delete`, `update_recursively`).

Settings are trees: aliasing (the same Python object stored in two places) is not modelled.  Functions that mutate
their argument return the new tree.
-/

namespace GeNSIT

/-- A dictionary key or list index. -/
inductive Key where
  | str (s : String)
  | idx (i : Nat)
  deriving DecidableEq

/-- A value that is neither a dictionary nor a list (floats are covered by opaque codes). -/
inductive Atom where
  | str (s : String)
  | num (x : Int)
  | bool (b : Bool)
  | null
  deriving DecidableEq

/-- Nested settings.  `node false` is a dictionary in insertion order; `node true` is a list given by its enumeration
`(0, x0), (1, x1), …`, which is how the code iterates over lists (`config.py:266-267`, `misc_utils.py:385-386`). -/
inductive Cfg where
  | leaf (a : Atom)
  | node (isList : Bool) (es : List (Key × Cfg))

/-- `{}`. -/
def Cfg.empty : Cfg := .node false []

/-- `value == 'not-found'`. -/
def Cfg.isNotFound : Cfg → Bool
  | .leaf (.str "not-found") => true
  | _ => false

/-- `isinstance(v, dict)`. -/
def Cfg.isDict : Cfg → Bool
  | .node false _ => true
  | _ => false

/-- `value[key]`; `none` = exception.  A string can be indexed by an integer. -/
def Cfg.getItem : Cfg → Key → Option Cfg
  | .node _ es, k => es.lookup k
  | .leaf (.str t), .idx i => (t.toList[i]?).map fun (ch : Char) => Cfg.leaf (.str (String.singleton ch))
  | .leaf _, _ => none

/-- Replace the value of a key, or append the key (`dict.__setitem__`). -/
def setEntry : List (Key × Cfg) → Key → Cfg → List (Key × Cfg)
  | [], k, v => [(k, v)]
  | (k', v') :: rest, k, v => if k = k' then (k', v) :: rest else (k', v') :: setEntry rest k v

/-- `value[key] = v`; `none` = exception (list index out of range, or not a container). -/
def Cfg.setItem : Cfg → Key → Cfg → Option Cfg
  | .node false es, k, v => some (.node false (setEntry es k v))
  | .node true es, k, v => if (es.lookup k).isSome then some (.node true (setEntry es k v)) else none
  | .leaf _, _, _ => none

/-! ### `Config.path_*` -/

/-- One step of `path_get` (`config.py:305-318`). -/
def pathGetStep (s : Cfg) (k : Key) : Option Cfg :=
  if k = .str "sweep" then
    match s with
    | .node false es =>
      match es.lookup k with
      | none => none
      | some v => if v.isNotFound then none else some v
    | _ => none
  else s.getItem k

/-- The loop of `path_get`. -/
def pathGetLoop : Cfg → List Key → Option Cfg
  | s, [] => some s
  | s, k :: ks =>
    match pathGetStep s k with
    | none => none
    | some v => pathGetLoop v ks

/-- `path_get` (`config.py:298-320`); `none` = `(_, False)`, `some v` = `(v, True)`. -/
def pathGet (s : Cfg) (p : List Key) : Option Cfg :=
  if p.isEmpty then none
  else
    match pathGetLoop s p with
    | none => none
    | some v => if v.isNotFound then none else some v

/-- `path_set` (`config.py:344-368`): the tree after the call and the returned flag; `none` = exception. -/
def pathSet (ov : Bool) : Cfg → Cfg → List Key → Option (Cfg × Bool)
  | s, _, [] => some (s, false)
  | s, v, [k] => (s.setItem k v).map fun (s' : Cfg) => (s', true)
  | s, v, k :: k' :: ks =>
    if ov then
      match pathSet ov Cfg.empty v (k' :: ks) with
      | none => none
      | some (sub, b) => (s.setItem k sub).map fun (s' : Cfg) => (s', b)
    else
      match s with
      | .node false es =>
        match es.lookup k with
        | some sub =>
          match pathSet ov sub v (k' :: ks) with
          | none => none
          | some (sub', b) => some (.node false (setEntry es k sub'), b)
        | none =>
          -- `settings.get(key, {})` creates a dictionary that is not stored
          match pathSet ov Cfg.empty v (k' :: ks) with
          | none => none
          | some (_, b) => some (s, b)
      | _ => none

/-- `v == key`, for a value `v` and a key. -/
def Cfg.equalsKey : Cfg → Key → Bool
  | .leaf (.str s), .str k => s == k
  | .leaf (.num x), .idx i => x == (i : Int)
  | .leaf (.bool b), .idx i => (if b then 1 else 0) == i
  | _, _ => false

/-- `key in settings`: keys of a dictionary, *elements* of a list, substrings of a text; `none` = exception. -/
def Cfg.containsKey : Cfg → Key → Option Bool
  | .node false es, k => some (es.lookup k).isSome
  | .node true es, k => some (es.any fun e => e.2.equalsKey k)
  | .leaf (.str s), .str k => some (decide (k.toList <:+: s.toList))
  | .leaf _, _ => none

/-- `path_modify` (`config.py:370-385`); `none` = exception.  The result of the recursive call is ignored. -/
def pathModify : Cfg → Cfg → List Key → Option (Cfg × Bool)
  | s, _, [] => some (s, false)
  | s, v, [k] =>
    match s.containsKey k with
    | none => none
    | some false => some (s, false)
    | some true => (s.setItem k v).map fun (s' : Cfg) => (s', true)
  | s, v, k :: k' :: ks =>
    match s.containsKey k with
    | none => none
    | some false => some (s, false)
    | some true =>
      match s.getItem k with
      | none => none
      | some sub =>
        match pathModify sub v (k' :: ks) with
        | none => none
        | some (sub', _) => (s.setItem k sub').map fun (s' : Cfg) => (s', true)

/-- Digits of a numeric string. -/
def digitsValue (cs : List Char) : Nat := cs.foldl (fun acc c => 10 * acc + (c.toNat - '0'.toNat)) 0

/-- `string_to_numeric(key) if key.isnumeric() else key` (`config.py:334-337`), ASCII digits. -/
def toIndex : Key → Key
  | .str s => if !s.toList.isEmpty && s.toList.all Char.isDigit then .idx (digitsValue s.toList) else .str s
  | .idx i => .idx i

/-- Re-enumerate the elements of a list. -/
def renumber : Nat → List (Key × Cfg) → List (Key × Cfg)
  | _, [] => []
  | i, (_, v) :: rest => (.idx i, v) :: renumber (i + 1) rest

/-- Remove the entry of a key. -/
def eraseEntry : List (Key × Cfg) → Key → List (Key × Cfg)
  | [], _ => []
  | (k', v') :: rest, k => if k = k' then rest else (k', v') :: eraseEntry rest k

/-- `path_delete` (`config.py:322-342`): the tree after the call and the flag; `none` = exception (`<` between a string key
and a list length). -/
def pathDelete : Cfg → List Key → Option (Cfg × Bool)
  | s, [] => some (s, false)
  | .node false es, [k] =>
    if (es.lookup k).isSome then some (.node false (eraseEntry es k), true) else some (.node false es, false)
  | .node true es, [.idx i] =>
    if i < es.length then some (.node true (renumber 0 (eraseEntry es (.idx i))), true) else some (.node true es, false)
  | .node true _, [.str _] => none
  | .leaf a, [_] => some (.leaf a, false)
  | s, k :: k' :: ks =>
    match s with
    | .leaf a => some (.leaf a, false)
    | .node l es =>
      match es.lookup (toIndex k) with
      | none => some (s, false)
      | some sub =>
        match pathDelete sub (k' :: ks) with
        | none => some (s, false)
        | some (sub', b) => some (.node l (setEntry es (toIndex k) sub'), b)

mutual
/-- `path_find` (`config.py:275-295`).  State: the shared list `current_key_path` and the result list `all_key_paths`.
`current_key_path.remove(k)` removes the *first* occurrence. -/
def pathFind (key : Key) : Cfg → List Key → List (List Key) → List Key × List (List Key)
  | .leaf _, cur, all => (cur, all)
  | .node _ es, cur, all => pathFindEntries key es cur all

/-- Loop body of `path_find` over the items. -/
def pathFindEntries (key : Key) : List (Key × Cfg) → List Key → List (List Key) → List Key × List (List Key)
  | [], cur, all => (cur, all)
  | e :: rest, cur, all =>
    let r := pathFindEntry key e cur all
    pathFindEntries key rest r.1 r.2

/-- One item of the loop of `path_find`. -/
def pathFindEntry (key : Key) : Key × Cfg → List Key → List (List Key) → List Key × List (List Key)
  | (k, v), cur, all =>
    let r := pathFind key v (cur ++ [k]) (if k = key then all ++ [cur ++ [k]] else all)
    (r.1.erase k, r.2)
end

mutual
/-- `path_exists` (`config.py:265-273`). -/
def pathExists (key : Key) : Cfg → Bool → Bool
  | .leaf _, found => found
  | .node _ es, found => pathExistsEntries key es found

/-- Loop of `path_exists`. -/
def pathExistsEntries (key : Key) : List (Key × Cfg) → Bool → Bool
  | [], found => found
  | e :: rest, found => pathExistsEntries key rest (pathExistsEntry key e found)

/-- One item of `path_exists`. -/
def pathExistsEntry (key : Key) : Key × Cfg → Bool → Bool
  | (k, v), found => if k = key then true else pathExists key v found
end

/-- One entry of `Config.update` (`config.py:58-87`): set the value at the first path of the key; `none` = exception. -/
def updateOne (s : Cfg) (key : Key) (v : Cfg) : Option Cfg :=
  match (pathFind key s [] []).2 with
  | [] => none
  | p :: _ =>
    match pathSet false s v p with
    | some (s', true) => some s'
    | _ => none

/-! ### `misc_utils` -/

mutual
/-- `deep_get` (`misc_utils.py:384-391`): the yielded values in order. -/
def deepGet (key : Key) : Cfg → List Cfg
  | .leaf _ => []
  | .node _ es => deepGetEntries key es

/-- Loop of `deep_get`. -/
def deepGetEntries (key : Key) : List (Key × Cfg) → List Cfg
  | [] => []
  | e :: rest => deepGetEntry key e ++ deepGetEntries key rest

/-- One item of `deep_get`. -/
def deepGetEntry (key : Key) : Key × Cfg → List Cfg
  | (k, v) => if k = key then [v] else deepGet key v
end

mutual
/-- `deep_delete` (`misc_utils.py:588-598`) with a single key; applied to a dictionary.  Only nested dictionaries are
visited, lists are kept as they are. -/
def deepDelete (key : Key) : Cfg → Cfg
  | .node false es => .node false (deepDeleteEntries key es)
  | v => v

/-- Loop of `deep_delete`. -/
def deepDeleteEntries (key : Key) : List (Key × Cfg) → List (Key × Cfg)
  | [] => []
  | e :: rest => deepDeleteEntry key e ++ deepDeleteEntries key rest

/-- One item of `deep_delete`. -/
def deepDeleteEntry (key : Key) : Key × Cfg → List (Key × Cfg)
  | (k, v) => if k = key then [] else [(k, deepDelete key v)]
end

mutual
/-- `deep_update` (`misc_utils.py:570-580`) with `overwrite = True`, applied to a dictionary. -/
def deepUpdate (key : Key) (val : Cfg) : Cfg → Cfg
  | .node false es => .node false (deepUpdateEntries key val es)
  | v => v

/-- Loop of `deep_update` over the items of a dictionary. -/
def deepUpdateEntries (key : Key) (val : Cfg) : List (Key × Cfg) → List (Key × Cfg)
  | [] => []
  | e :: rest => deepUpdateEntry key val e :: deepUpdateEntries key val rest

/-- One item of `deep_update`: a nested list is visited one level deep, for its dictionaries (`misc_utils.py:576-579`). -/
def deepUpdateEntry (key : Key) (val : Cfg) : Key × Cfg → Key × Cfg
  | (k, v) => if k = key then (k, val) else (k, deepUpdateValue key val v)

/-- The `elif` branches of `deep_update`. -/
def deepUpdateValue (key : Key) (val : Cfg) : Cfg → Cfg
  | .leaf a => .leaf a
  | .node false es => .node false (deepUpdateEntries key val es)
  | .node true es => .node true (deepUpdateElems key val es)

/-- Elements of a nested list. -/
def deepUpdateElems (key : Key) (val : Cfg) : List (Key × Cfg) → List (Key × Cfg)
  | [] => []
  | e :: rest => deepUpdateElem key val e :: deepUpdateElems key val rest

/-- One element of a nested list. -/
def deepUpdateElem (key : Key) (val : Cfg) : Key × Cfg → Key × Cfg
  | (k, v) => (k, deepUpdate key val v)
end

/-- `dict(items)`: later items overwrite earlier ones, a key keeps its first position. -/
def toDict (items : List (Key × Cfg)) : List (Key × Cfg) :=
  items.foldl (fun (acc : List (Key × Cfg)) (e : Key × Cfg) => setEntry acc e.1 e.2) []

mutual
/-- `deep_flatten` (`misc_utils.py:550-559`) of a dictionary; `new_key = k`, the parent key is not used. -/
def deepFlatten : Cfg → List (Key × Cfg)
  | .node false es => toDict (flatItems es)
  | _ => []

/-- The list `items`. -/
def flatItems : List (Key × Cfg) → List (Key × Cfg)
  | [] => []
  | e :: rest => flatItem e ++ flatItems rest

/-- One item: a nested dictionary contributes its own flattening. -/
def flatItem : Key × Cfg → List (Key × Cfg)
  | (k, v) => if v.isDict then deepFlatten v else [(k, v)]
end

/-- `d.get(k, {})`; `none` = exception (not a dictionary). -/
def Cfg.getOrEmpty : Cfg → Key → Option Cfg
  | .node false es, k => some ((es.lookup k).getD Cfg.empty)
  | _, _ => none

/-- `k not in d.keys()`, then `d[k] = v` (`misc_utils.py:544-546`). -/
def Cfg.setIfAbsent : Cfg → Key → Cfg → Option Cfg
  | .node false es, k, v => if (es.lookup k).isSome then some (.node false es) else some (.node false (setEntry es k v))
  | _, _, _ => none

mutual
/-- `update_recursively(d, u, overwrite)` (`misc_utils.py:535-547`), by recursion on `u`; a `u` that is not a dictionary is
not passed by any caller and leaves `d` as it is.  `none` = exception. -/
def updateRec (ov : Bool) : Cfg → Cfg → Option Cfg
  | .node false es, d => updateRecEntries ov es d
  | _, d => some d

/-- Loop of `update_recursively` over `u.items()`. -/
def updateRecEntries (ov : Bool) : List (Key × Cfg) → Cfg → Option Cfg
  | [], d => some d
  | e :: rest, d =>
    match updateRecEntry ov e d with
    | none => none
    | some d' => updateRecEntries ov rest d'

/-- One item of `update_recursively`. -/
def updateRecEntry (ov : Bool) : Key × Cfg → Cfg → Option Cfg
  | (k, v), d =>
    if v.isDict then
      match d.getOrEmpty k with
      | none => none
      | some sub =>
        match updateRec ov v sub with
        | none => none
        | some sub' => d.setItem k sub'
    else if ov then d.setItem k v
    else d.setIfAbsent k v
end

end GeNSIT
