import Verif.Config.Model
import Mathlib.Data.List.Nodup
import Mathlib.Data.List.Infix

/-!
# Specification vocabulary for nested settings
-/

namespace GeNSIT.Spec

open GeNSIT

/-- Plain reading of a path through dictionaries and lists. -/
def readAt : Cfg → List Key → Option Cfg
  | c, [] => some c
  | .node _ es, k :: ks =>
    match es.lookup k with
    | none => none
    | some v => readAt v ks
  | .leaf _, _ :: _ => none

/-- A non-empty path at which something is stored. -/
def HasPath (c : Cfg) (p : List Key) : Prop := p ≠ [] ∧ (readAt c p).isSome

/-- What every Python tree satisfies: no key occurs twice in a container, and the keys of a list are `0, 1, 2, …`. -/
def WellFormed (c : Cfg) : Prop :=
  ∀ p l es, readAt c p = some (.node l es) →
    (es.map Prod.fst).Nodup ∧ (l = true → es.map Prod.fst = (List.range es.length).map Key.idx)

/-- Neither path is a prefix of the other. -/
def Unrelated (p q : List Key) : Prop := ¬ p <+: q ∧ ¬ q <+: p

/-- The first place on a path where `u` stops being a dictionary. -/
def LeafAt (u : Cfg) (p : List Key) (x : Cfg) : Prop :=
  readAt u p = some x ∧ x.isDict = false ∧ ∀ q, q <+: p → q ≠ p → ∃ es, readAt u q = some (.node false es)

/-- A list directly inside a list. -/
def ListInList (c : Cfg) : Prop := ∃ p k es es', readAt c p = some (.node true es) ∧ es.lookup k = some (.node true es')

/-- No list anywhere in the tree. -/
def ListFree (c : Cfg) : Prop := ∀ p es, readAt c p ≠ some (.node true es)

/-- The container at a path, if it is a dictionary, has these keys in this order. -/
def keysAt (c : Cfg) (p : List Key) : Option (List Key) :=
  match readAt c p with
  | some (.node false es) => some (es.map Prod.fst)
  | _ => none

end GeNSIT.Spec
