import Verif.Config.Spec

/-!
# Specification vocabulary for the discovery of sweeps
-/

namespace GeNSIT.Spec

open GeNSIT

/-- Following the given dictionary keys from `c`, and choosing any element wherever a list is met, one arrives at the
value `x`, which is not a dictionary. -/
inductive Reaches : Cfg → List Key → Cfg → Prop
  | here {c : Cfg} : c.isDict = false → Reaches c [] c
  | entry {es : List (Key × Cfg)} {k : Key} {v : Cfg} {p : List Key} {x : Cfg} :
      (k, v) ∈ es → (∀ l, v ≠ .node true l) → Reaches v p x → Reaches (.node false es) (k :: p) x
  | element {es l : List (Key × Cfg)} {k i : Key} {v : Cfg} {p : List Key} {x : Cfg} :
      (k, .node true l) ∈ es → (i, v) ∈ l → Reaches v p x → Reaches (.node false es) (k :: p) x

/-- A value that counts as true. -/
def Truthy (x : Cfg) : Prop :=
  (∃ t, x = .leaf (.str t) ∧ t ≠ "") ∨ (∃ n : Int, x = .leaf (.num n) ∧ n ≠ 0) ∨ x = .leaf (.bool true) ∨
    ∃ l es, x = .node l es ∧ es ≠ []

/-- The settings `d` of a sweep couple it to the parameter `t`. -/
def SweptWith (d : List (Key × Cfg)) (t : String) : Prop :=
  (∃ x, d.lookup (.str "coupled") = some x ∧ Truthy x) ∧ d.lookup (.str "target_name") = some (.leaf (.str t)) ∧ t ≠ ""

/-- The settings `d` of a sweep do not couple it to anything. -/
def Uncoupled (d : List (Key × Cfg)) : Prop :=
  (∀ x, d.lookup (.str "coupled") = some x → ¬ Truthy x) ∨ d.lookup (.str "target_name") = none ∨
    d.lookup (.str "target_name") = some (.leaf (.str "")) ∨ ∃ l, d.lookup (.str "target_name") = some (.node l [])

/-- The parameter at path `q` is swept: below `q` there is a `sweep` (and none above it), and some value is reached whose
path (or which itself) mentions `range`. -/
def SweptAt (c : Cfg) (q : List Key) : Prop :=
  Key.str "sweep" ∉ q ∧ ∃ (r : List Key) (x : Cfg), Reaches c (q ++ Key.str "sweep" :: r) x ∧
    (Key.str "range" ∈ q ∨ Key.str "range" ∈ r ∨ x = .leaf (.str "range"))

/-- The name of a swept parameter: the last key of its path, or the one before when that is `file`. -/
def NamedAs (q : List Key) (n : Key) : Prop :=
  (∃ a, q = a ++ [n] ∧ n ≠ .str "file") ∨ ∃ a, q = a ++ [n, .str "file"]

/-- The swept parameter at `q`, called `n`, with the settings `d` of its sweep. -/
def Sweep (c : Cfg) (q : List Key) (n : Key) (d : List (Key × Cfg)) : Prop :=
  SweptAt c q ∧ NamedAs q n ∧ readAt c (q ++ [.str "sweep"]) = some (.node false d)

end GeNSIT.Spec
