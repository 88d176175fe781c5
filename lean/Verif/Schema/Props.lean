import Verif.Schema.Model
import Verif.Utils.Props
import Mathlib.Tactic.Linarith
import Mathlib.Tactic.NormNum

/-!
# Properties of the schema checks: C87 – C91
-/

set_option linter.unusedSimpArgs false

namespace GeNSIT

namespace Spec

/-- The end of an interval as written in a schema: `null` or a number. -/
inductive IsEnd : PyVal → Option ℚ → Prop
  | open : IsEnd .none none
  | int (z : ℤ) : IsEnd (.int z) (some z)
  | float (q : ℚ) : IsEnd (.float q) (some q)

/-- A Python integer with its value; `True` and `False` are integers. -/
inductive IsInt : PyVal → ℚ → Prop
  | int (z : ℤ) : IsInt (.int z) z
  | true : IsInt (.bool true) 1
  | false : IsInt (.bool false) 0

/-- A finite Python number with its value. -/
inductive IsNumber : PyVal → ℚ → Prop
  | int {v : PyVal} {x : ℚ} : IsInt v x → IsNumber v x
  | float (q : ℚ) : IsNumber (.float q) q

/-- `None`, NaN and infinities. -/
inductive IsMissing : PyVal → Prop
  | none : IsMissing .none
  | nan : IsMissing .nan
  | inf : IsMissing .inf

/-- Lists nested `d` deep whose innermost elements satisfy `P`. -/
def Nested (P : PyVal → Prop) : ℕ → PyVal → Prop
  | 0, v => P v
  | d + 1, v => ∃ l, v = .list l ∧ ∀ x ∈ l, Nested P d x

/-- The schema of lists nested `d` deep: `dtype`, `list-dtype`, `list-list-dtype`, … all `list`, and then `t`. -/
def listDtype : ℕ → List Char
  | 0 => "dtype".toList
  | k + 1 => "list-".toList ++ listDtype k

def nestedSchema (t : String) (d : ℕ) : List (String × PyVal) :=
  ((List.range d).map fun k => (String.ofList (listDtype k), PyVal.str "list")) ++
    [(String.ofList (listDtype d), PyVal.str t)]

end Spec

open Spec

/-- A world for the examples: everything exists below the root, and `str` is one letter. -/
def demoWorld : World := ⟨fun _ => true, fun _ => "x"⟩

theorem Spec.IsEnd.limit {a : PyVal} {lo : Option ℚ} (h : IsEnd a lo) : a.limit = some lo := by
  cases h <;> rfl

theorem number_iff (v : PyVal) (x : ℚ) : v.number = some x ↔ IsNumber v x := by
  constructor
  · intro h
    cases v with
    | bool b =>
      cases b <;> simp [PyVal.number] at h <;> subst h
      · exact .int .false
      · exact .int .true
    | int z => simp [PyVal.number] at h; subst h; exact .int (.int z)
    | float q => simp [PyVal.number] at h; subst h; exact .float q
    | _ => simp [PyVal.number] at h
  · rintro (⟨h⟩ | q)
    · cases h <;> simp [PyVal.number]
    · rfl

theorem passes_prim {w : World} {sch : Schema} {k : Kind} (v : PyVal) (hk : sch.kind = some k)
    (h1 : k ≠ .list) (h2 : k ≠ .list2D) (h3 : k ≠ .customList) (h4 : k ≠ .dict) :
    passes w sch v = checkPrim w k sch v := by
  have hp : instPrim sch v = some (.prim k sch v) := by
    unfold instPrim; rw [hk]; cases k <;> simp_all
  have : instantiate sch v = some (.prim k sch v) := by
    cases v <;> simp only [instantiate, hk] <;> cases k <;> simp_all
  simp [passes, this, Entry.check]

theorem rangeOk_closed {sch : Schema} {a b : PyVal} {lo hi : Option ℚ} {rest : List PyVal}
    (hr : sch.lookup "valid-range" = some (.list (a :: b :: rest))) (ha : IsEnd a lo) (hb : IsEnd b hi)
    (hi' : sch.lookup "inclusive" = none) (v : PyVal) :
    rangeOk sch v = true ↔
      (∃ x, IsNumber v x ∧ InClosed lo hi x) ∨ (IsMissing v ∧ sch.flag "allow-nan" false = true) := by
  have hl : (PyVal.list (a :: b :: rest)).limits = some (lo, hi) := by
    simp [PyVal.limits, ha.limit, hb.limit]
  have hinc : sch.flag "inclusive" true = true := by simp [Schema.flag, hi']
  have hR : rangeOk sch v = (match v.toNumVal with
      | some x => checkRange x lo hi (sch.flag "allow-nan" false) true
      | none => false) := by
    unfold rangeOk
    rw [hr]
    simp only [hl, hinc]
    cases v.toNumVal <;> rfl
  rw [hR]
  have num : ∀ x : ℚ, v.toNumVal = some (.num x) → IsNumber v x → ¬ IsMissing v →
      ((match v.toNumVal with
        | some x => checkRange x lo hi (sch.flag "allow-nan" false) true
        | none => false) = true ↔
      (∃ x, IsNumber v x ∧ InClosed lo hi x) ∨ (IsMissing v ∧ sch.flag "allow-nan" false = true)) := by
    intro x hx hn hm
    rw [hx]
    simp only
    rw [(C41_inclusive_partial x lo hi _).2.2]
    constructor
    · intro h; exact Or.inl ⟨x, hn, h⟩
    · rintro (⟨y, hy, hc⟩ | ⟨hm', _⟩)
      · have e1 := (number_iff v x).mpr hn
        have e2 := (number_iff v y).mpr hy
        rw [e1] at e2
        cases e2
        exact hc
      · exact absurd hm' hm
  have missing : v.toNumVal = some .missing ∨ v.toNumVal = some .nonFinite → IsMissing v →
      (∀ x, ¬ IsNumber v x) →
      ((match v.toNumVal with
        | some x => checkRange x lo hi (sch.flag "allow-nan" false) true
        | none => false) = true ↔
      (∃ x, IsNumber v x ∧ InClosed lo hi x) ∨ (IsMissing v ∧ sch.flag "allow-nan" false = true)) := by
    intro h hm hn
    have : (match v.toNumVal with
        | some x => checkRange x lo hi (sch.flag "allow-nan" false) true
        | none => false) = true ↔ sch.flag "allow-nan" false = true := by
      rcases h with h | h <;> rw [h]
      · exact (C41_missing lo hi _ true).1
      · exact (C41_missing lo hi _ true).2
    rw [this]
    constructor
    · intro h; exact Or.inr ⟨hm, h⟩
    · rintro (⟨y, hy, _⟩ | ⟨_, h⟩)
      · exact absurd hy (hn y)
      · exact h
  have other : v.toNumVal = none → ¬ IsMissing v → (∀ x, ¬ IsNumber v x) →
      ((match v.toNumVal with
        | some x => checkRange x lo hi (sch.flag "allow-nan" false) true
        | none => false) = true ↔
      (∃ x, IsNumber v x ∧ InClosed lo hi x) ∨ (IsMissing v ∧ sch.flag "allow-nan" false = true)) := by
    intro h hm hn
    rw [h]
    simp only [Bool.false_eq_true, false_iff, not_or, not_exists, not_and]
    exact ⟨fun x hx => absurd hx (hn x), fun h' => absurd h' hm⟩
  have nn : v.number = none → ∀ x, ¬ IsNumber v x := by
    intro h x hx
    have := (number_iff v x).mpr hx
    rw [h] at this; cases this
  cases v with
  | none => exact missing (Or.inl rfl) .none (nn rfl)
  | nan => exact missing (Or.inr rfl) .nan (nn rfl)
  | inf => exact missing (Or.inr rfl) .inf (nn rfl)
  | bool b =>
    cases b
    · exact num 0 (by simp [PyVal.toNumVal, PyVal.number]) (.int .false) (by intro h; cases h)
    · exact num 1 (by simp [PyVal.toNumVal, PyVal.number]) (.int .true) (by intro h; cases h)
  | int z => exact num z (by simp [PyVal.toNumVal, PyVal.number]) (.int (.int z)) (by intro h; cases h)
  | float q => exact num q (by simp [PyVal.toNumVal, PyVal.number]) (.float q) (by intro h; cases h)
  | str s => exact other rfl (by intro h; cases h) (nn rfl)
  | list l => exact other rfl (by intro h; cases h) (nn rfl)
  | dict l => exact other rfl (by intro h; cases h) (nn rfl)

/-! ## C87 — numbers and strings -/

/-- A setting declared as an integer with a range is accepted exactly when it is an integer of that range. -/
theorem C87_int (w : World) (sch : Schema) (v a b : PyVal) (lo hi : Option ℚ)
    (ht : sch.lookup "dtype" = some (.str "int")) (hr : sch.lookup "valid-range" = some (.list [a, b]))
    (ha : IsEnd a lo) (hb : IsEnd b hi) (hn : sch.lookup "allow-nan" = none) (hi' : sch.lookup "inclusive" = none)
    (hs : sch.lookup "is-any-of" = none) (hf : sch.lookup "is-infinite" = none) :
    passes w sch v = true ↔ ∃ x, IsInt v x ∧ InClosed lo hi x := by
  have hk : sch.kind = some .int := by simp [Schema.kind, ht, kindOf]
  have hna : sch.flag "allow-nan" false = false := by simp [Schema.flag, hn]
  have hfin : finiteOk sch v = true := by simp [finiteOk, Schema.flag, hf]
  have hsc : scopeOk sch v = true := by simp [scopeOk, hs]
  rw [passes_prim v hk (by decide) (by decide) (by decide) (by decide)]
  have hR := rangeOk_closed hr ha hb hi' v
  simp only [checkPrim, typeOk, hna, hfin, hsc, Bool.or_false, Bool.and_true, Bool.and_eq_true]
  rw [hR]
  simp only [hna, Bool.false_eq_true, and_false, or_false]
  constructor
  · rintro ⟨ht, x, hx, hc⟩
    cases hx with
    | int h => exact ⟨x, h, hc⟩
    | float q => simp [isInst] at ht
  · rintro ⟨x, hx, hc⟩
    refine ⟨?_, x, .int hx, hc⟩
    cases hx <;> rfl

/-- The schema of `n_workers`. -/
example :
    let sch : Schema := [("sweepable", .bool false), ("dtype", .str "int"), ("valid-range", .list [.int 1, .int 32])]
    passes demoWorld sch (.int 32) = true ∧ passes demoWorld sch (.int 33) = false ∧ passes demoWorld sch (.float 2) = false ∧
      passes demoWorld sch (.bool true) = true := by
  intro sch
  refine ⟨by decide +kernel, by decide +kernel, by decide +kernel, by decide +kernel⟩

/-- A setting declared as a float with a range is accepted exactly when it is a finite float of that range (an integer such
as `1` is refused). -/
theorem C87_float (w : World) (sch : Schema) (v a b : PyVal) (lo hi : Option ℚ)
    (ht : sch.lookup "dtype" = some (.str "float")) (hr : sch.lookup "valid-range" = some (.list [a, b]))
    (ha : IsEnd a lo) (hb : IsEnd b hi) (hn : sch.lookup "allow-nan" = none) (hi' : sch.lookup "inclusive" = none)
    (hs : sch.lookup "is-any-of" = none) (hf : sch.lookup "is-infinite" = none) :
    passes w sch v = true ↔ ∃ q, v = .float q ∧ InClosed lo hi q := by
  have hk : sch.kind = some .float := by simp [Schema.kind, ht, kindOf]
  have hna : sch.flag "allow-nan" false = false := by simp [Schema.flag, hn]
  have hfin : finiteOk sch v = true := by simp [finiteOk, Schema.flag, hf]
  have hsc : scopeOk sch v = true := by simp [scopeOk, hs]
  rw [passes_prim v hk (by decide) (by decide) (by decide) (by decide)]
  have hR := rangeOk_closed hr ha hb hi' v
  simp only [checkPrim, typeOk, hna, hfin, hsc, Bool.or_false, Bool.and_true, Bool.and_eq_true]
  rw [hR]
  simp only [hna, Bool.false_eq_true, and_false, or_false]
  constructor
  · rintro ⟨ht, x, hx, hc⟩
    cases hx with
    | int h => cases h <;> simp [isInst] at ht
    | float q => exact ⟨x, rfl, hc⟩
  · rintro ⟨q, rfl, hc⟩
    exact ⟨rfl, q, .float q, hc⟩

example :
    let sch : Schema := [("dtype", .str "float"), ("valid-range", .list [.float 0, .none])]
    passes demoWorld sch (.float (1/2)) = true ∧ passes demoWorld sch (.float (-1)) = false ∧ passes demoWorld sch (.int 1) = false ∧
      passes demoWorld sch .none = false := by
  intro sch
  refine ⟨by decide +kernel, by decide +kernel, by decide +kernel, by decide +kernel⟩

/-- A setting declared as a string with a nonempty list of allowed strings is accepted exactly when it is one of them. -/
theorem C87_str (w : World) (sch : Schema) (v : PyVal) (allowed : List String)
    (ht : sch.lookup "dtype" = some (.str "str")) (hs : sch.lookup "is-any-of" = some (.list (allowed.map .str)))
    (hne : allowed ≠ []) (hn : sch.lookup "allow-nan" = none) :
    passes w sch v = true ↔ ∃ s, v = .str s ∧ s ∈ allowed := by
  have hk : sch.kind = some .str := by simp [Schema.kind, ht, kindOf]
  have hna : sch.flag "allow-nan" false = false := by simp [Schema.flag, hn]
  rw [passes_prim v hk (by decide) (by decide) (by decide) (by decide)]
  obtain ⟨a, l, rfl⟩ := List.exists_cons_of_ne_nil hne
  simp only [checkPrim, typeOk, hna, Bool.or_false, Bool.and_eq_true]
  have hsc : scopeOk sch v = ((a :: l).map PyVal.str).any fun x => v.eqv x := by
    simp [scopeOk, hs]
  rw [hsc]
  cases v with
  | str s =>
    simp only [isInst, true_and, PyVal.str.injEq, exists_eq_left', List.any_map, List.any_eq_true, Function.comp]
    constructor
    · rintro ⟨x, hx, he⟩
      simp only [PyVal.eqv, beq_iff_eq] at he
      rw [he]; exact hx
    · intro h
      exact ⟨s, h, by simp [PyVal.eqv]⟩
  | _ => simp [isInst]

example :
    let sch : Schema := [("dtype", .str "str"), ("is-any-of", .list [.str "cpu", .str "cuda"])]
    passes demoWorld sch (.str "cuda") = true ∧ passes demoWorld sch (.str "gpu") = false ∧ passes demoWorld sch (.int 1) = false := by
  intro sch
  refine ⟨by decide +kernel, by decide +kernel, by decide +kernel⟩

/-- With `allow-nan` the type is not checked any more: a number declared as an integer or as a float is accepted exactly when it is
missing or *any* number of the range. -/
theorem C87_allow_nan (w : World) (sch : Schema) (v a b : PyVal) (lo hi : Option ℚ) (t : String)
    (htt : t = "int" ∨ t = "float")
    (ht : sch.lookup "dtype" = some (.str t)) (hr : sch.lookup "valid-range" = some (.list [a, b]))
    (ha : IsEnd a lo) (hb : IsEnd b hi) (hn : sch.lookup "allow-nan" = some (.bool true))
    (hi' : sch.lookup "inclusive" = none) (hs : sch.lookup "is-any-of" = none)
    (hf : sch.lookup "is-infinite" = none) :
    passes w sch v = true ↔ IsMissing v ∨ ∃ x, IsNumber v x ∧ InClosed lo hi x := by
  have hna : sch.flag "allow-nan" false = true := by simp [Schema.flag, hn, PyVal.truthy]
  have hfin : finiteOk sch v = true := by simp [finiteOk, Schema.flag, hf]
  have hsc : scopeOk sch v = true := by simp [scopeOk, hs]
  have hR := rangeOk_closed hr ha hb hi' v
  have : passes w sch v = rangeOk sch v := by
    rcases htt with rfl | rfl
    · have hk : sch.kind = some .int := by simp [Schema.kind, ht, kindOf]
      rw [passes_prim v hk (by decide) (by decide) (by decide) (by decide)]
      simp [checkPrim, typeOk, hna, hfin, hsc]
    · have hk : sch.kind = some .float := by simp [Schema.kind, ht, kindOf]
      rw [passes_prim v hk (by decide) (by decide) (by decide) (by decide)]
      simp [checkPrim, typeOk, hna, hfin, hsc]
  rw [this, hR, hna]
  simp only [and_true]
  exact or_comm

/-- Hence the declared type is not guaranteed: the schema of `n_threads` accepts `3.5` threads. -/
theorem C87_allow_nan_false (w : World) : ∃ sch : Schema, sch.lookup "dtype" = some (.str "int") ∧
    sch.lookup "valid-range" = some (.list [.int 1, .int 32]) ∧ passes w sch (.float (7/2)) = true := by
  refine ⟨[("allow-nan", .bool true), ("dtype", .str "int"), ("default-value", .int 8),
    ("valid-range", .list [.int 1, .int 32])], rfl, rfl, ?_⟩
  rw [C87_allow_nan w _ _ (.int 1) (.int 32) _ _ "int" (Or.inl rfl) rfl rfl (.int 1) (.int 32) rfl rfl rfl rfl]
  refine Or.inr ⟨7/2, .float _, ?_⟩
  constructor <;> intro l hl <;> simp only [Option.some.injEq] at hl <;> subst hl <;> norm_num

/-! ## C88 — booleans -/

/-- A setting declared as a boolean is never checked: every value whatever is accepted. -/
theorem C88_bool_unchecked (w : World) (sch : Schema) (v : PyVal) (ht : sch.lookup "dtype" = some (.str "bool")) :
    passes w sch v = true := by
  have hk : sch.kind = some .bool := by simp [Schema.kind, ht, kindOf]
  rw [passes_prim v hk (by decide) (by decide) (by decide) (by decide)]
  rfl

/-- So "only `true` and `false` are accepted" is false, and it fails in the dangerous direction: the accepted text "false" is a
true value for the program. -/
theorem C88_bool_false (w : World) : ∃ (sch : Schema) (v : PyVal), sch.lookup "dtype" = some (.str "bool") ∧
    (∀ b, v ≠ .bool b) ∧ passes w sch v = true ∧ v.truthy = true :=
  ⟨[("dtype", .str "bool"), ("default-value", .bool false)], .str "false", rfl, (by intro b h; cases h),
    C88_bool_unchecked w _ _ rfl, by decide⟩

/-! ## C89 — files and directories -/

/-- A setting declared as a file with a `file-extension` (as in the shipped schema, which has no `extension`): accepted exactly when it is
a string naming, if existence is required, an existing path.  The extension plays no part. -/
theorem C89_file (w : World) (sch : Schema) (v e : PyVal) (mustExist : Bool)
    (ht : sch.lookup "dtype" = some (.str "file")) (_he : sch.lookup "file-extension" = some e)
    (hx : sch.lookup "file-exists" = some (.bool mustExist)) (hn : sch.lookup "allow-nan" = none)
    (h1 : sch.lookup "extension" = none) (h2 : sch.lookup "path-exists" = none)
    (h3 : sch.lookup "directory-exists" = none) (h4 : sch.lookup "exists" = none) :
    passes w sch v = true ↔ ∃ s, v = .str s ∧ (mustExist = true → w.pathExists s = true) := by
  have hk : sch.kind = some .file := by simp [Schema.kind, ht, kindOf]
  rw [passes_prim v hk (by decide) (by decide) (by decide) (by decide)]
  have hE : existsOk w sch v = true ↔ (mustExist = true → ∃ s, v = .str s ∧ w.pathExists s = true) := by
    unfold existsOk
    simp only [Schema.flag, hx, h2, h3, h4, PyVal.truthy, Bool.or_false, Bool.false_or]
    cases mustExist with
    | false => simp
    | true =>
      cases v <;> simp
  simp only [checkPrim, typeOk, Schema.flag, hn, Bool.or_false, extensionOk, h1, Bool.and_true, Bool.and_eq_true, hE]
  cases v <;> simp [isInst, pathLike]

/-- "A file setting has the declared extension" is false: a text file is accepted where a JSON file is declared. -/
theorem C89_extension_false (w : World) : ∃ (sch : Schema) (s : String), sch.lookup "dtype" = some (.str "file") ∧
    sch.lookup "file-extension" = some (.str "json") ∧ endsWith s ".json" = false ∧ passes w sch (.str s) = true := by
  refine ⟨[("dtype", .str "file"), ("file-exists", .bool false), ("file-extension", .str "json")], "table.txt", rfl, rfl,
    by decide +kernel, ?_⟩
  rw [C89_file w _ _ (.str "json") false rfl rfl rfl rfl rfl rfl rfl rfl]
  exact ⟨_, rfl, by simp⟩

/-- The extension is enforced only by a schema that has both `extension` (any value) and `file-extension`. -/
theorem C89_extension_partial (w : World) (sch : Schema) (s e x : String)
    (ht : sch.lookup "dtype" = some (.str "file")) (h1 : sch.lookup "extension" = some (.str x))
    (h2 : sch.lookup "file-extension" = some (.str e)) (hp : passes w sch (.str s) = true) :
    ∃ stem, s.toList = stem ++ ('.' :: e.toList) := by
  have hk : sch.kind = some .file := by simp [Schema.kind, ht, kindOf]
  rw [passes_prim _ hk (by decide) (by decide) (by decide) (by decide)] at hp
  simp only [checkPrim, Bool.and_eq_true, extensionOk, h1, h2, endsWith] at hp
  obtain ⟨t, ht'⟩ := List.isSuffixOf_iff_suffix.mp hp.2
  exact ⟨t, by rw [← ht']; simp [String.toList_append]⟩

example : passes demoWorld [("dtype", .str "file"), ("extension", .str "yes"), ("file-extension", .str "json")]
    (.str "a.json") = true := by decide +kernel

/-- A directory setting is accepted exactly when it is a string naming, if required, an existing path – a regular file will do. -/
theorem C89_directory (w : World) (sch : Schema) (v : PyVal) (mustExist : Bool)
    (ht : sch.lookup "dtype" = some (.str "directory"))
    (hx : sch.lookup "directory-exists" = some (.bool mustExist)) (hn : sch.lookup "allow-nan" = none)
    (h2 : sch.lookup "path-exists" = none) (h3 : sch.lookup "file-exists" = none)
    (h4 : sch.lookup "exists" = none) :
    passes w sch v = true ↔ ∃ s, v = .str s ∧ (mustExist = true → w.pathExists s = true) := by
  have hk : sch.kind = some .directory := by simp [Schema.kind, ht, kindOf]
  rw [passes_prim v hk (by decide) (by decide) (by decide) (by decide)]
  have hE : existsOk w sch v = true ↔ (mustExist = true → ∃ s, v = .str s ∧ w.pathExists s = true) := by
    unfold existsOk
    simp only [Schema.flag, hx, h2, h3, h4, PyVal.truthy, Bool.or_false, Bool.false_or]
    cases mustExist with
    | false => simp
    | true =>
      cases v <;> simp
  simp only [checkPrim, typeOk, Schema.flag, hn, Bool.or_false, Bool.and_eq_true, hE]
  cases v <;> simp [isInst, pathLike]

example (w : World) (h : w.pathExists "data/inputs" = true) :
    passes w [("dtype", .str "directory"), ("directory-exists", .bool true)] (.str "data/inputs") = true := by
  rw [C89_directory w _ _ true rfl rfl rfl rfl rfl rfl]
  exact ⟨_, rfl, fun _ => h⟩

/-! ## C90 — lists -/

theorem instList_some {sch : Schema} {l : List PyVal} {es : List Entry} (h : instList sch l = some es) :
    List.Forall₂ (fun v e => instantiate sch v = some e) l es := by
  induction l generalizing es with
  | nil => simp [instList] at h; subst h; exact .nil
  | cons v l ih =>
    simp only [instList] at h
    split at h
    · next e es' h1 h2 => cases h; exact .cons h1 (ih h2)
    · cases h

theorem instList_of {sch : Schema} {l : List PyVal} {es : List Entry}
    (h : List.Forall₂ (fun v e => instantiate sch v = some e) l es) : instList sch l = some es := by
  induction h with
  | nil => simp [instList]
  | cons h1 _ ih => simp [instList, h1, ih]

theorem checkElems_iff (w : World) (es : List Entry) : checkElems w es = true ↔ ∀ e ∈ es, checkElem w e = true := by
  induction es with
  | nil => simp [checkElems]
  | cons e es ih => simp [checkElems, ih]

/-- Instantiating and checking the elements of a list is doing so with each of them. -/
theorem elems_iff (w : World) (sch : Schema) (l : List PyVal) :
    (∃ es, instList sch l = some es ∧ checkElems w es = true) ↔
      ∀ x ∈ l, ∃ e, instantiate sch x = some e ∧ checkElem w e = true := by
  induction l with
  | nil => simp [instList, checkElems]
  | cons v l ih =>
    constructor
    · rintro ⟨es, h, hc⟩
      have hf := instList_some h
      cases hf with
      | cons h1 h2 =>
        simp only [checkElems, Bool.and_eq_true] at hc
        intro x hx
        rcases List.mem_cons.mp hx with rfl | hx
        · exact ⟨_, h1, hc.1⟩
        · exact ih.mp ⟨_, instList_of h2, hc.2⟩ x hx
    · intro h
      obtain ⟨e, he, hce⟩ := h v (List.mem_cons_self ..)
      obtain ⟨es, hes, hces⟩ := ih.mpr fun x hx => h x (List.mem_cons_of_mem _ hx)
      exact ⟨e :: es, by simp [instList, he, hes], by simp [checkElems, hce, hces]⟩

theorem instantiate_prim {sch : Schema} {k : Kind} (v : PyVal) (hk : sch.kind = some k)
    (h1 : k ≠ .list) (h2 : k ≠ .list2D) (h3 : k ≠ .customList) (h4 : k ≠ .dict) :
    instantiate sch v = some (.prim k sch v) := by
  have hp : instPrim sch v = some (.prim k sch v) := by
    unfold instPrim; rw [hk]; cases k <;> simp_all
  cases v <;> simp only [instantiate, hk] <;> cases k <;> simp_all

/-- A list whose elements are primitive: length, uniqueness, and every element by itself. -/
theorem passes_list (w : World) {sch s : Schema} {k : Kind} (hd : sch.kind = some .list) (hs : sch.inner = s)
    (hk : s.kind = some k) (h1 : k ≠ .list) (h2 : k ≠ .list2D) (h3 : k ≠ .customList) (h4 : k ≠ .dict) (v : PyVal) :
    passes w sch v = true ↔ ∃ l, v = .list l ∧ lengthOk s l.length = true ∧
      uniqueOk w s (l.map fun x => .prim k s x) = true ∧ ∀ x ∈ l, passes w s x = true := by
  have hin : ∀ l, instList s l = some (l.map fun x => .prim k s x) := by
    intro l
    induction l with
    | nil => simp [instList]
    | cons x l ih => simp [instList, ih, instantiate_prim x hk h1 h2 h3 h4]
  have hp : ∀ x, passes w s x = checkElem w (.prim k s x) := by
    intro x
    rw [passes_prim x hk h1 h2 h3 h4]; rfl
  cases v with
  | list l =>
    have : instantiate sch (.list l) = some (.list s (l.map fun x => .prim k s x)) := by
      simp [instantiate, hd, hs, hin]
    have hpl : passes w sch (.list l) = (Entry.list s (l.map fun x => .prim k s x)).check w := by
      simp only [passes, this]
    rw [hpl]
    simp only [Entry.check, Bool.and_eq_true, List.length_map, checkElems_iff, PyVal.list.injEq,
      exists_eq_left', List.mem_map, forall_exists_index, and_imp, forall_apply_eq_imp_iff₂, hp, and_assoc]
  | dict l =>
    have : instantiate sch (.dict l) = none := by simp [instantiate, hd]
    simp [passes, this]
  | _ => simp [passes, instantiate, hd, instPrim]

theorem mapM_prim_value (s : Schema) (k : Kind) (l : List PyVal) (hv : ∀ x ∈ l, primValue k s x = some x) :
    (l.map fun x => Entry.prim k s x).mapM Entry.value = some l := by
  induction l with
  | nil => rfl
  | cons x l ih =>
    have hx := hv x (List.mem_cons_self ..)
    have := ih fun y hy => hv y (List.mem_cons_of_mem _ hy)
    simp [List.mapM_cons, Entry.value, hx, this]

theorem lengthOk_range {s : Schema} {a b : PyVal} {lo hi : Option ℚ}
    (hl : s.lookup "length" = some (.list [a, b])) (ha : IsEnd a lo) (hb : IsEnd b hi) (n : ℕ) :
    lengthOk s n = true ↔ InClosed lo hi (n : ℚ) := by
  have h2 : (PyVal.list [a, b]).limits = some (lo, hi) := by simp [PyVal.limits, ha.limit, hb.limit]
  simp only [lengthOk, hl, h2]
  exact (C41_inclusive_partial _ lo hi _).2.2

/-- What becomes of the keys used in the statements below. -/
theorem contains_keys :
    droppedKeys.contains "list-dtype" = false ∧
    droppedKeys.contains "list-length" = false ∧
    droppedKeys.contains "unique-vals" = false ∧
    droppedKeys.contains "valid-range" = false ∧
    droppedKeys.contains "is-any-of" = false ∧
    droppedKeys.contains "list-list2D-nrows" = false ∧
    droppedKeys.contains "list-list2D-ncols" = false ∧
    droppedKeys.contains "list-list2D-dtype" = false ∧
    droppedKeys.contains "value-range" = false ∧
    droppedKeys.contains "list2D-nrows" = false ∧
    droppedKeys.contains "list2D-ncols" = false ∧
    droppedKeys.contains "list2D-dtype" = false ∧
    droppedKeys.contains "list-dict-key-dtype" = false ∧
    droppedKeys.contains "list-dict-value-dtype" = false ∧
    droppedKeys.contains "dict-key-dtype" = false ∧
    droppedKeys.contains "dict-value-dtype" = false ∧
    droppedKeys.contains "inclusive" = false ∧
    droppedKeys.contains "dtype" = true := by
  decide +kernel

theorem strip_keys :
    stripKey schemaPrefixes "list-dtype" = "dtype" ∧
    stripKey schemaPrefixes "list-length" = "length" ∧
    stripKey schemaPrefixes "unique-vals" = "unique-vals" ∧
    stripKey schemaPrefixes "valid-range" = "valid-range" ∧
    stripKey schemaPrefixes "is-any-of" = "is-any-of" ∧
    stripKey schemaPrefixes "list-list2D-nrows" = "list2D-nrows" ∧
    stripKey schemaPrefixes "list-list2D-ncols" = "list2D-ncols" ∧
    stripKey schemaPrefixes "list-list2D-dtype" = "list2D-dtype" ∧
    stripKey schemaPrefixes "value-range" = "value-range" ∧
    stripKey schemaPrefixes "list2D-nrows" = "nrows" ∧
    stripKey schemaPrefixes "list2D-ncols" = "ncols" ∧
    stripKey schemaPrefixes "list2D-dtype" = "dtype" ∧
    stripKey schemaPrefixes "list-dict-key-dtype" = "dict-key-dtype" ∧
    stripKey schemaPrefixes "list-dict-value-dtype" = "dict-value-dtype" ∧
    stripKey schemaPrefixes "dict-key-dtype" = "key-dtype" ∧
    stripKey schemaPrefixes "dict-value-dtype" = "value-dtype" ∧
    stripKey schemaPrefixes "inclusive" = "inclusive" := by
  decide +kernel

theorem sub_keys :
    stripKey ["key-"] "key-dtype" = "dtype" ∧
    stripKey ["value-"] "value-dtype" = "dtype" ∧
    "key-".toList.isPrefixOf "key-dtype".toList = true ∧
    "key-".toList.isPrefixOf "value-dtype".toList = false ∧
    "value-".toList.isPrefixOf "key-dtype".toList = false ∧
    "value-".toList.isPrefixOf "value-dtype".toList = true := by
  decide +kernel

/-- A setting declared as a list of integers, with a range for its length, a range for its elements and possibly the demand that
they be different: accepted exactly when it is a list of an allowed length of integers in the range, different (as they are
printed) when that is demanded. -/
theorem C90_list_of_ints (w : World) (v la lb a b : PyVal) (llo lhi lo hi : Option ℚ) (u : Bool)
    (hla : IsEnd la llo) (hlb : IsEnd lb lhi) (ha : IsEnd a lo) (hb : IsEnd b hi) :
    passes w [("dtype", .str "list"), ("list-dtype", .str "int"), ("list-length", .list [la, lb]),
        ("unique-vals", .bool u), ("valid-range", .list [a, b])] v = true ↔
      ∃ l, v = .list l ∧ InClosed llo lhi (l.length : ℚ) ∧ (u = true → (l.map w.pyStr).Nodup) ∧
        ∀ x ∈ l, ∃ z, IsInt x z ∧ InClosed lo hi z := by
  have hs : Schema.inner [("dtype", .str "list"), ("list-dtype", .str "int"), ("list-length", .list [la, lb]),
        ("unique-vals", .bool u), ("valid-range", .list [a, b])] =
      [("dtype", .str "int"), ("length", .list [la, lb]), ("unique-vals", .bool u), ("valid-range", .list [a, b])] := by
    simp [Schema.inner, Schema.set, contains_keys, strip_keys, -List.contains_eq_mem]
  rw [passes_list w rfl hs rfl (by decide) (by decide) (by decide) (by decide)]
  refine exists_congr fun l => and_congr_right fun hv => ?_
  rw [lengthOk_range rfl hla hlb]
  refine and_congr_right fun _ => ?_
  have hel : ∀ x, passes w [("dtype", .str "int"), ("length", .list [la, lb]), ("unique-vals", .bool u),
      ("valid-range", .list [a, b])] x = true ↔ ∃ z, IsInt x z ∧ InClosed lo hi z := fun x =>
    C87_int w _ x a b lo hi rfl rfl ha hb rfl rfl rfl rfl
  simp only [hel]
  rw [and_congr_left_iff]
  intro hx
  have hval : ∀ x ∈ l, primValue .int [("dtype", .str "int"), ("length", .list [la, lb]), ("unique-vals", .bool u),
      ("valid-range", .list [a, b])] x = some x := by
    intro x hxl
    obtain ⟨z, hz, _⟩ := hx x hxl
    cases hz <;> simp [primValue, PyVal.isNull]
  have hm := mapM_prim_value _ _ l hval
  cases u with
  | false => simp [uniqueOk, Schema.flag, List.lookup, PyVal.truthy]
  | true =>
    unfold uniqueOk
    rw [hm]
    simp [Schema.flag, List.lookup, PyVal.truthy]

example (w : World) (hw : w.pyStr (.int 1) ≠ w.pyStr (.int 2)) :
    passes w [("dtype", .str "list"), ("list-dtype", .str "int"), ("list-length", .list [.int 1, .none]),
        ("unique-vals", .bool true), ("valid-range", .list [.int 0, .none])] (.list [.int 1, .int 2]) = true := by
  rw [C90_list_of_ints w _ _ _ _ _ _ _ _ _ true (.int 1) .open (.int 0) .open]
  refine ⟨_, rfl, ?_, fun _ => by simpa using hw, ?_⟩
  · constructor <;> intro l hl <;> simp at hl
    subst hl; norm_num
  · intro x hx
    simp at hx
    rcases hx with rfl | rfl <;>
    · refine ⟨_, .int _, ?_⟩
      constructor <;> intro l hl <;> simp at hl
      subst hl; norm_num

/-- Likewise a list of strings with a list of allowed strings. -/
theorem C90_list_of_strs (w : World) (v la lb : PyVal) (llo lhi : Option ℚ) (allowed : List String)
    (hne : allowed ≠ []) (hla : IsEnd la llo) (hlb : IsEnd lb lhi) :
    passes w [("dtype", .str "list"), ("list-dtype", .str "str"), ("list-length", .list [la, lb]),
        ("is-any-of", .list (allowed.map .str))] v = true ↔
      ∃ l, v = .list l ∧ InClosed llo lhi (l.length : ℚ) ∧ ∀ x ∈ l, ∃ s, x = .str s ∧ s ∈ allowed := by
  have hs : Schema.inner [("dtype", .str "list"), ("list-dtype", .str "str"), ("list-length", .list [la, lb]),
        ("is-any-of", .list (allowed.map .str))] =
      [("dtype", .str "str"), ("length", .list [la, lb]), ("is-any-of", .list (allowed.map .str))] := by
    simp [Schema.inner, Schema.set, contains_keys, strip_keys, -List.contains_eq_mem]
  rw [passes_list w rfl hs rfl (by decide) (by decide) (by decide) (by decide)]
  refine exists_congr fun l => and_congr_right fun hv => ?_
  rw [lengthOk_range rfl hla hlb]
  have hel : ∀ x, passes w [("dtype", .str "str"), ("length", .list [la, lb]), ("is-any-of", .list (allowed.map .str))]
      x = true ↔ ∃ s, x = .str s ∧ s ∈ allowed := fun x => C87_str w _ x allowed rfl rfl hne rfl
  simp only [hel]
  simp [uniqueOk, Schema.flag, List.lookup]

example : passes demoWorld [("dtype", .str "list"), ("list-dtype", .str "str"), ("list-length", .list [.int 1, .none]),
    ("is-any-of", .list [.str "table", .str "theta"])] (.list [.str "theta", .str "theta"]) = true := by decide +kernel

theorem listDtype_length (k : ℕ) : (listDtype k).length = 5 * k + 5 := by
  induction k with
  | zero => rfl
  | succ k ih => simp [listDtype, ih]; omega

theorem listDtype_inj {i j : ℕ} (h : String.ofList (listDtype i) = String.ofList (listDtype j)) : i = j := by
  have h' : listDtype i = listDtype j := by simpa using congrArg String.toList h
  have := congrArg List.length h'
  rw [listDtype_length, listDtype_length] at this
  omega

theorem set_append {acc : Schema} {k : String} {v : PyVal} (h : ∀ e ∈ acc, e.1 ≠ k) :
    acc.set k v = acc ++ [(k, v)] := by
  induction acc with
  | nil => rfl
  | cons e acc ih =>
    obtain ⟨k', v'⟩ := e
    have h1 : k' ≠ k := h (k', v') (List.mem_cons_self ..)
    simp [Schema.set, h1, ih fun e he => h e (List.mem_cons_of_mem _ he)]

theorem strip_listDtype (k : ℕ) :
    stripKey schemaPrefixes (String.ofList (listDtype (k + 1))) = String.ofList (listDtype k) := by
  have e : listDtype (k + 1) = 'l' :: 'i' :: 's' :: 't' :: '-' :: listDtype k := rfl
  simp [schemaPrefixes, stripKey, e, List.isPrefixOf]

theorem notDropped_listDtype (k : ℕ) : droppedKeys.contains (String.ofList (listDtype (k + 1))) = false := by
  have e : listDtype (k + 1) = 'l' :: 'i' :: 's' :: 't' :: '-' :: listDtype k := rfl
  have : ∀ s ∈ droppedKeys, String.ofList (listDtype (k + 1)) ≠ s := by
    intro s hs h
    have h' : listDtype (k + 1) = s.toList := by simpa using congrArg String.toList h
    rw [e] at h'
    simp [droppedKeys] at hs
    rcases hs with rfl | rfl | rfl | rfl <;> simp at h'
  simp only [List.contains_eq_mem, decide_eq_false_iff_not]
  intro h
  exact this _ h rfl

theorem nestedSchema_inner (t : String) (d : ℕ) : Schema.inner (nestedSchema t (d + 1)) = nestedSchema t d := by
  have main : ∀ n : ℕ,
      List.foldl (fun (acc : Schema) e => if droppedKeys.contains e.1 then acc else acc.set (stripKey schemaPrefixes e.1) e.2)
        [] ((List.range (n + 1)).map fun k => (String.ofList (listDtype k), PyVal.str "list")) =
      ((List.range n).map fun k => (String.ofList (listDtype k), PyVal.str "list")) := by
    intro n
    induction n with
    | zero =>
      have : droppedKeys.contains (String.ofList (listDtype 0)) = true := by decide +kernel
      simp only [List.range_succ, List.range_zero, List.nil_append, List.map_cons, List.map_nil, List.foldl_cons,
        List.foldl_nil, this, if_true]
    | succ n ih =>
      rw [List.range_succ, List.map_append, List.foldl_append, ih]
      simp only [List.map_cons, List.map_nil, List.foldl_cons, List.foldl_nil, notDropped_listDtype, Bool.false_eq_true,
        if_false, strip_listDtype]
      rw [set_append, ← List.map_singleton (f := fun k => (String.ofList (listDtype k), PyVal.str "list")),
        ← List.map_append, ← List.range_succ]
      intro e he h
      obtain ⟨i, hi, rfl⟩ := List.mem_map.mp he
      have := listDtype_inj h
      simp at hi
      omega
  unfold Schema.inner nestedSchema
  rw [List.foldl_append, main d]
  simp only [List.foldl_cons, List.foldl_nil, notDropped_listDtype, Bool.false_eq_true, if_false, strip_listDtype]
  rw [set_append]
  intro e he h
  obtain ⟨i, hi, rfl⟩ := List.mem_map.mp he
  have := listDtype_inj h
  simp at hi
  omega

theorem nestedSchema_kind (t : String) (d : ℕ) : Schema.kind (nestedSchema t (d + 1)) = some .list := by
  have e : String.ofList (listDtype 0) = "dtype" := by decide +kernel
  have : (nestedSchema t (d + 1)).lookup "dtype" = some (.str "list") := by
    unfold nestedSchema
    rw [List.range_succ_eq_map]
    simp [e, List.lookup]
  simp [Schema.kind, this, kindOf]

theorem nestedSchema_lookup (t : String) (d : ℕ) (key : String) (h : ∀ k, String.ofList (listDtype k) ≠ key) :
    (nestedSchema t d).lookup key = none := by
  rw [List.lookup_eq_none_iff]
  intro e he
  unfold nestedSchema at he
  simp only [List.mem_append, List.mem_map, List.mem_singleton] at he
  simp only [bne_iff_ne, ne_eq, beq_eq_false_iff_ne]
  rcases he with ⟨k, _, rfl⟩ | rfl <;> simp only [Bool.not_eq_true, beq_eq_false_iff_ne, ne_eq] <;>
    exact fun hh => h _ hh.symm

theorem listDtype_ne {key : String} (h : ∀ k, listDtype k ≠ key.toList) (k : ℕ) :
    String.ofList (listDtype k) ≠ key := by
  intro e
  exact h k (by simpa using congrArg String.toList e)

theorem elem_nested (w : World) (t : String) (k : Kind) (hk : kindOf t = some k)
    (h1 : k ≠ .list) (h2 : k ≠ .list2D) (h3 : k ≠ .customList) (h4 : k ≠ .dict) (d : ℕ) (v : PyVal) :
    (∃ e, instantiate (nestedSchema t d) v = some e ∧ checkElem w e = true) ↔
      Nested (fun x => passes w [("dtype", .str t)] x = true) d v := by
  induction d generalizing v with
  | zero =>
    have e : nestedSchema t 0 = [("dtype", .str t)] := by
      simp [nestedSchema]; decide +kernel
    have hkk : Schema.kind [("dtype", .str t)] = some k := by simp [Schema.kind, List.lookup, hk]
    rw [e]
    simp only [Nested, passes_prim v hkk h1 h2 h3 h4, instantiate_prim v hkk h1 h2 h3 h4, Option.some.injEq,
      exists_eq_left', checkElem]
  | succ d ih =>
    have hkd := nestedSchema_kind t d
    have hin := nestedSchema_inner t d
    simp only [Nested]
    cases v with
    | list l =>
      have : instantiate (nestedSchema t (d + 1)) (.list l) =
          (instList (nestedSchema t d) l).map (.list (nestedSchema t d)) := by
        simp [instantiate, hkd, hin]
      rw [this]
      have hh := elems_iff w (nestedSchema t d) l
      simp only [ih] at hh
      simp only [PyVal.list.injEq, exists_eq_left']
      rw [← hh]
      constructor
      · rintro ⟨e, he, hc⟩
        obtain ⟨es, hes, rfl⟩ := Option.map_eq_some_iff.mp he
        exact ⟨es, hes, by simpa [checkElem] using hc⟩
      · rintro ⟨es, hes, hc⟩
        exact ⟨_, by rw [hes]; rfl, by simpa [checkElem] using hc⟩
    | dict l => simp [instantiate, hkd]
    | _ => simp [instantiate, hkd, instPrim]

/-- A setting declared as lists nested `d` deep of a primitive type (`dtype`, `list-dtype`, `list-list-dtype`, …) is accepted
exactly when it is lists nested `d` deep whose innermost elements are accepted for that type – at every depth, however deep. -/
theorem C90_nested (w : World) (t : String) (ht : t ∈ ["int", "float", "str", "bool", "file", "directory", "strInt"])
    (d : ℕ) (v : PyVal) :
    passes w (nestedSchema t d) v = true ↔ Nested (fun x => passes w [("dtype", .str t)] x = true) d v := by
  have hk : ∃ k, kindOf t = some k ∧ k ≠ .list ∧ k ≠ .list2D ∧ k ≠ .customList ∧ k ≠ .dict := by
    simp at ht
    rcases ht with rfl | rfl | rfl | rfl | rfl | rfl | rfl
    · exact ⟨.int, by simp [kindOf], by decide, by decide, by decide, by decide⟩
    · exact ⟨.float, by simp [kindOf], by decide, by decide, by decide, by decide⟩
    · exact ⟨.str, by simp [kindOf], by decide, by decide, by decide, by decide⟩
    · exact ⟨.bool, by simp [kindOf], by decide, by decide, by decide, by decide⟩
    · exact ⟨.file, by simp [kindOf], by decide, by decide, by decide, by decide⟩
    · exact ⟨.directory, by simp [kindOf], by decide, by decide, by decide, by decide⟩
    · exact ⟨.strInt, by simp [kindOf], by decide, by decide, by decide, by decide⟩
  obtain ⟨k, hk, h1, h2, h3, h4⟩ := hk
  rw [← elem_nested w t k hk h1 h2 h3 h4 d v]
  have hlen : ∀ d n, lengthOk (nestedSchema t d) n = true := by
    intro d n
    rw [lengthOk, nestedSchema_lookup t d "length" (listDtype_ne fun k hh => by
      have := congrArg List.length hh
      rw [listDtype_length] at this
      have : ("length".toList).length = 6 := by decide +kernel
      omega)]
  have huni : ∀ d es, uniqueOk w (nestedSchema t d) es = true := by
    intro d es
    rw [uniqueOk, Schema.flag, nestedSchema_lookup t d "unique-vals" (listDtype_ne fun k hh => by
      have := congrArg List.length hh
      rw [listDtype_length] at this
      have : ("unique-vals".toList).length = 11 := by decide +kernel
      omega)]
    rfl
  cases d with
  | zero =>
    have e : nestedSchema t 0 = [("dtype", .str t)] := by
      simp [nestedSchema]; decide +kernel
    have hkk : Schema.kind [("dtype", .str t)] = some k := by simp [Schema.kind, List.lookup, hk]
    rw [e, passes_prim v hkk h1 h2 h3 h4, instantiate_prim v hkk h1 h2 h3 h4]
    simp only [Option.some.injEq, exists_eq_left', checkElem]
  | succ d =>
    have hkd := nestedSchema_kind t d
    have hin := nestedSchema_inner t d
    cases v with
    | list l =>
      have : instantiate (nestedSchema t (d + 1)) (.list l) =
          (instList (nestedSchema t d) l).map (.list (nestedSchema t d)) := by
        simp [instantiate, hkd, hin]
      rw [passes, this]
      cases instList (nestedSchema t d) l with
      | none => simp
      | some es => simp [Entry.check, hlen, huni, checkElem]
    | dict l => simp [passes, instantiate, hkd]
    | _ => simp [passes, instantiate, hkd, instPrim]

example : passes demoWorld (nestedSchema "int" 2) (.list [.list [.int 0, .int 1], .list [.int 3, .int 4]]) = true ∧
    passes demoWorld (nestedSchema "int" 2) (.list [.list [.int 0, .float 1], .list []]) = false := by
  constructor <;> decide +kernel

/-- The entries of a shipped schema, `covariance.sweep.range`: a list of tables of two rows and two columns of floats. -/
def covarianceRange : Schema :=
  [("dtype", .str "list"), ("list-dtype", .str "list2D"), ("list-list2D-nrows", .int 2), ("list-list2D-ncols", .int 2),
    ("list-list2D-dtype", .str "float"), ("value-range", .list [.float 0, .none])]

/-- "Every table of a list of tables has the declared numbers of rows and columns" is false: the shape is checked when the
setting is one table, and not when it is a list of tables. -/
theorem C90_list_of_tables_false (w : World) :
    passes w covarianceRange (.list [.list [.list [.float 1, .float 2, .float 3]]]) = true ∧
      passes w [("dtype", .str "list2D"), ("list2D-nrows", .int 2), ("list2D-ncols", .int 2), ("list2D-dtype", .str "float")]
        (.list [.list [.float 1, .float 2, .float 3]]) = false := by
  constructor
  · simp [passes, covarianceRange, instantiate, instList, instRows, instItems, instCustom, parseCustom, instPrim, Schema.kind,
      kindOf, List.lookup, Schema.inner, Schema.sub, Schema.set, contains_keys, strip_keys, sub_keys, Entry.check, lengthOk,
      uniqueOk, Schema.flag, checkElems, checkElem, checkRows, checkKeys, dimsOk, checkPrim, typeOk, finiteOk, rangeOk,
      scopeOk, isInst, PyVal.toNumVal, PyVal.number, PyVal.limits, PyVal.limit, checkRange, inRange, PyVal.truthy,
      -List.contains_eq_mem]
  · simp [passes, covarianceRange, instantiate, instList, instRows, instItems, instCustom, parseCustom, instPrim, Schema.kind,
      kindOf, List.lookup, Schema.inner, Schema.sub, Schema.set, contains_keys, strip_keys, sub_keys, Entry.check, lengthOk,
      uniqueOk, Schema.flag, checkElems, checkElem, checkRows, checkKeys, dimsOk, checkPrim, typeOk, finiteOk, rangeOk,
      scopeOk, isInst, PyVal.toNumVal, PyVal.number, PyVal.limits, PyVal.limit, checkRange, inRange, PyVal.truthy,
      -List.contains_eq_mem]

/-- "Every value of every dictionary of a list of dictionaries is of the declared type" is false: only the keys are looked at. -/
theorem C90_list_of_dicts_false (w : World) :
    passes w [("dtype", .str "list"), ("list-dtype", .str "dict"), ("list-dict-key-dtype", .str "str"),
        ("list-dict-value-dtype", .str "int")] (.list [.dict [("a", .str "text")]]) = true ∧
      passes w [("dtype", .str "dict"), ("dict-key-dtype", .str "str"), ("dict-value-dtype", .str "int")]
        (.dict [("a", .str "text")]) = false := by
  constructor
  · simp [passes, covarianceRange, instantiate, instList, instRows, instItems, instCustom, parseCustom, instPrim, Schema.kind,
      kindOf, List.lookup, Schema.inner, Schema.sub, Schema.set, contains_keys, strip_keys, sub_keys, Entry.check, lengthOk,
      uniqueOk, Schema.flag, checkElems, checkElem, checkRows, checkKeys, dimsOk, checkPrim, typeOk, finiteOk, rangeOk,
      scopeOk, isInst, PyVal.toNumVal, PyVal.number, PyVal.limits, PyVal.limit, checkRange, inRange, PyVal.truthy,
      -List.contains_eq_mem]
  · simp [passes, covarianceRange, instantiate, instList, instRows, instItems, instCustom, parseCustom, instPrim, Schema.kind,
      kindOf, List.lookup, Schema.inner, Schema.sub, Schema.set, contains_keys, strip_keys, sub_keys, Entry.check, lengthOk,
      uniqueOk, Schema.flag, checkElems, checkElem, checkRows, checkKeys, dimsOk, checkPrim, typeOk, finiteOk, rangeOk,
      scopeOk, isInst, PyVal.toNumVal, PyVal.number, PyVal.limits, PyVal.limit, checkRange, inRange, PyVal.truthy,
      -List.contains_eq_mem]

/-- "The values of a list declared to have distinct values are distinct" is false for the list of seeds of the shipped schema: a
`customList` does not look at `unique-vals`. -/
theorem C90_custom_unique_false (w : World) :
    passes w [("dtype", .str "customList"), ("list-dtype", .str "int"), ("valid-range", .list [.int 0, .none]),
      ("inclusive", .bool true), ("unique-vals", .bool true)] (.list [.int 7, .int 7]) = true := by
  simp [passes, covarianceRange, instantiate, instList, instRows, instItems, instCustom, parseCustom, instPrim, Schema.kind,
      kindOf, List.lookup, Schema.inner, Schema.sub, Schema.set, contains_keys, strip_keys, sub_keys, Entry.check, lengthOk,
      uniqueOk, Schema.flag, checkElems, checkElem, checkRows, checkKeys, dimsOk, checkPrim, typeOk, finiteOk, rangeOk,
      scopeOk, isInst, PyVal.toNumVal, PyVal.number, PyVal.limits, PyVal.limit, checkRange, inRange, PyVal.truthy,
      -List.contains_eq_mem]

/-! ## C91 — the value handed to the program -/

mutual
/-- Nothing is missing anywhere in the value: no `None`, no NaN, nothing empty (string, list, dictionary, key). -/
def Spec.Full : PyVal → Prop
  | .none => False
  | .nan => False
  | .str s => s ≠ ""
  | .list l => l ≠ [] ∧ Spec.FullAll l
  | .dict l => l ≠ [] ∧ Spec.FullItems l
  | .bool _ => True
  | .int _ => True
  | .float _ => True
  | .inf => True
def Spec.FullAll : List PyVal → Prop
  | [] => True
  | v :: l => Spec.Full v ∧ Spec.FullAll l
def Spec.FullItems : List (String × PyVal) → Prop
  | [] => True
  | (k, v) :: l => k ≠ "" ∧ Spec.Full v ∧ Spec.FullItems l
end

mutual
/-- The word `customList` occurs nowhere among the values of a schema. -/
def Spec.NoCustom : PyVal → Prop
  | .str s => s ≠ "customList" ∧ s ≠ "CustomList"
  | .list l => Spec.NoCustomAll l
  | .dict l => Spec.NoCustomItems l
  | .none => True
  | .nan => True
  | .inf => True
  | .bool _ => True
  | .int _ => True
  | .float _ => True
def Spec.NoCustomAll : List PyVal → Prop
  | [] => True
  | v :: l => Spec.NoCustom v ∧ Spec.NoCustomAll l
def Spec.NoCustomItems : List (String × PyVal) → Prop
  | [] => True
  | (_, v) :: l => Spec.NoCustom v ∧ Spec.NoCustomItems l
end

/-- The value the program gets for a setting: the data are instantiated and `value()` is called. -/
def loadedValue (sch : Schema) (v : PyVal) : Option PyVal := (instantiate sch v).bind Entry.value

theorem noCustom_mem {s : Schema} (h : NoCustomItems s) {k : String} {v : PyVal} (hm : (k, v) ∈ s) : NoCustom v := by
  induction s with
  | nil => simp at hm
  | cons e s ih =>
    obtain ⟨k', v'⟩ := e
    simp only [NoCustomItems] at h
    rcases List.mem_cons.mp hm with he | hm
    · cases he; exact h.1
    · exact ih h.2 hm

theorem noCustom_lookup {s : Schema} (h : NoCustomItems s) {k : String} {v : PyVal} (hl : s.lookup k = some v) :
    NoCustom v := by
  induction s with
  | nil => simp at hl
  | cons e s ih =>
    obtain ⟨k', v'⟩ := e
    simp only [NoCustomItems] at h
    rw [List.lookup_cons] at hl
    split at hl
    · cases hl; exact h.1
    · exact ih h.2 hl

theorem noCustom_set {s : Schema} (h : NoCustomItems s) {k : String} {v : PyVal} (hv : NoCustom v) :
    NoCustomItems (s.set k v) := by
  induction s with
  | nil => simp only [Schema.set, NoCustomItems]; exact ⟨hv, trivial⟩
  | cons e s ih =>
    obtain ⟨k', v'⟩ := e
    simp only [NoCustomItems] at h
    simp only [Schema.set]
    split
    · simp only [NoCustomItems]; exact ⟨hv, h.2⟩
    · simp only [NoCustomItems]; exact ⟨h.1, ih h.2⟩

theorem noCustom_inner {s : Schema} (h : NoCustomItems s) : NoCustomItems s.inner := by
  unfold Schema.inner
  have : ∀ (l acc : Schema), NoCustomItems l → NoCustomItems acc → NoCustomItems (l.foldl (fun (acc : Schema) e =>
      if droppedKeys.contains e.1 then acc else acc.set (stripKey schemaPrefixes e.1) e.2) acc) := by
    intro l
    induction l with
    | nil => intro acc _ ha; exact ha
    | cons e l ih =>
      intro acc hl ha
      simp only [NoCustomItems] at hl
      rw [List.foldl_cons]
      refine ih _ hl.2 ?_
      split
      · exact ha
      · exact noCustom_set ha hl.1
  exact this s [] h (by simp [NoCustomItems])

theorem noCustom_sub {s : Schema} (pre : String) (h : NoCustomItems s) : NoCustomItems (s.sub pre) := by
  unfold Schema.sub
  have : ∀ (l acc : Schema), NoCustomItems l → NoCustomItems acc → NoCustomItems (l.foldl (fun (acc : Schema) e =>
      if pre.toList.isPrefixOf e.1.toList then acc.set (stripKey [pre] e.1) e.2 else acc) acc) := by
    intro l
    induction l with
    | nil => intro acc _ ha; exact ha
    | cons e l ih =>
      intro acc hl ha
      simp only [NoCustomItems] at hl
      rw [List.foldl_cons]
      refine ih _ hl.2 ?_
      split
      · exact noCustom_set ha hl.1
      · exact ha
  exact this s [] h (by simp [NoCustomItems])

theorem noCustom_kind {s : Schema} (h : NoCustomItems s) : s.kind ≠ some .customList := by
  intro hk
  unfold Schema.kind at hk
  split at hk
  · next t ht =>
    have := noCustom_lookup h ht
    simp only [NoCustom] at this
    unfold kindOf at hk
    split at hk <;> simp_all
  · cases hk

mutual
theorem full_notNull : ∀ v : PyVal, Full v → v.isNull = false
  | .none, h => by simp [Full] at h
  | .nan, h => by simp [Full] at h
  | .inf, _ => by simp [PyVal.isNull]
  | .bool _, _ => by simp [PyVal.isNull]
  | .int _, _ => by simp [PyVal.isNull]
  | .float _, _ => by simp [PyVal.isNull]
  | .str s, h => by simp only [Full] at h; simp [PyVal.isNull, h]
  | .list l, h => by simp only [Full] at h; simp [PyVal.isNull, fullAll_notNull l h.2]
  | .dict l, h => by simp only [Full] at h; simp only [PyVal.isNull]; exact fullItems_notNull l h.2
theorem fullAll_notNull : ∀ l : List PyVal, FullAll l → anyNull l = false
  | [], _ => by simp [anyNull]
  | v :: l, h => by simp only [FullAll] at h; simp [anyNull, full_notNull v h.1, fullAll_notNull l h.2]
theorem fullItems_notNull : ∀ l : List (String × PyVal), FullItems l → (l.any fun e => e.1 == "") = false
  | [], _ => by simp
  | (k, v) :: l, h => by simp only [FullItems] at h; simpa [h.1] using fullItems_notNull l h.2.2
end

theorem primValue_full {k : Kind} {s : Schema} {v x : PyVal} (h : Full v) (hx : primValue k s v = some x) : x = v := by
  have hn := full_notNull v h
  cases v <;> cases k <;> simp_all [primValue, Full]

theorem instPrim_full {s : Schema} {v x : PyVal} {e : Entry} (h : Full v) (he : instPrim s v = some e)
    (hx : e.value = some x) : x = v := by
  unfold instPrim at he
  split at he <;> cases he
  all_goals (simp only [Entry.value] at hx; exact primValue_full h hx)

mutual
theorem value_full : ∀ (v : PyVal) (s : Schema) (e : Entry) (x : PyVal), NoCustomItems s → Full v →
    instantiate s v = some e → e.value = some x → x = v
  | .list l, s, e, x, hs, hf, hi, hx => by
    have hk := noCustom_kind hs
    simp only [instantiate] at hi
    have hf' := hf
    simp only [Full] at hf'
    split at hi
    · obtain ⟨es, hes, rfl⟩ := Option.map_eq_some_iff.mp hi
      simp only [Entry.value] at hx
      obtain ⟨ys, hys, rfl⟩ := Option.map_eq_some_iff.mp hx
      rw [value_fullList l _ es ys (noCustom_inner hs) hf'.2 hes _ hys]
    · obtain ⟨es, hes, rfl⟩ := Option.map_eq_some_iff.mp hi
      simp only [Entry.value] at hx
      obtain ⟨ys, hys, rfl⟩ := Option.map_eq_some_iff.mp hx
      rw [value_fullRows l _ es ys (noCustom_inner hs) hf'.2 hes _ hys]
    · next h => exact absurd h hk
    · cases hi
    · exact instPrim_full hf hi hx
  | .dict l, s, e, x, hs, hf, hi, hx => by
    have hk := noCustom_kind hs
    simp only [instantiate] at hi
    have hf' := hf
    simp only [Full] at hf'
    split at hi
    · obtain ⟨es, hes, rfl⟩ := Option.map_eq_some_iff.mp hi
      simp only [Entry.value] at hx
      obtain ⟨ys, hys, rfl⟩ := Option.map_eq_some_iff.mp hx
      rw [value_fullItems l _ _ es ys (noCustom_sub _ (noCustom_inner hs)) (noCustom_sub _ (noCustom_inner hs)) hf'.2
        hes hys]
    · cases hi
    · cases hi
    · cases hi
    · exact instPrim_full hf hi hx
  | .none, s, e, x, hs, hf, hi, hx => by
    simp [Full] at hf
  | .nan, s, e, x, hs, hf, hi, hx => by
    simp [Full] at hf
  | .inf, s, e, x, hs, hf, hi, hx => by
    have hk := noCustom_kind hs
    simp only [instantiate] at hi
    exact instPrim_full hf hi hx
  | .bool _, s, e, x, hs, hf, hi, hx => by
    have hk := noCustom_kind hs
    simp only [instantiate] at hi
    exact instPrim_full hf hi hx
  | .int _, s, e, x, hs, hf, hi, hx => by
    have hk := noCustom_kind hs
    simp only [instantiate] at hi
    exact instPrim_full hf hi hx
  | .float _, s, e, x, hs, hf, hi, hx => by
    have hk := noCustom_kind hs
    simp only [instantiate] at hi
    exact instPrim_full hf hi hx
  | .str _, s, e, x, hs, hf, hi, hx => by
    have hk := noCustom_kind hs
    simp only [instantiate] at hi
    exact instPrim_full hf hi hx
theorem value_fullList : ∀ (l : List PyVal) (s : Schema) (es : List Entry) (ys : List PyVal), NoCustomItems s →
    FullAll l → instList s l = some es → ∀ s' : Schema, valueList s' es = some ys → ys = l
  | [], s, es, ys, hs, hf, hi, s', hx => by
    simp only [instList, Option.some.injEq] at hi; subst hi
    simp only [valueList, Option.some.injEq] at hx; exact hx.symm
  | v :: l, s, es, ys, hs, hf, hi, s', hx => by
    simp only [FullAll] at hf
    simp only [instList] at hi
    split at hi
    · next e es' h1 h2 =>
      cases hi
      simp only [valueList] at hx
      split at hx
      · next y ys' h3 h4 =>
        have e1 := value_full v s e y hs hf.1 h1 h3
        have e2 := value_fullList l s es' ys' hs hf.2 h2 s' h4
        subst e1 e2
        simp only [orDefault, full_notNull _ hf.1, Bool.false_eq_true, if_false, Option.map_some, Option.some.injEq] at hx
        exact hx.symm
      · cases hx
    · cases hi
theorem value_fullRows : ∀ (l : List PyVal) (s : Schema) (es : List (List Entry)) (ys : List PyVal), NoCustomItems s →
    FullAll l → instRows s l = some es → ∀ s' : Schema, valueRows s' es = some ys → ys = l
  | [], s, es, ys, hs, hf, hi, s', hx => by
    simp only [instRows, Option.some.injEq] at hi; subst hi
    simp only [valueRows, Option.some.injEq] at hx; exact hx.symm
  | .list r :: l, s, es, ys, hs, hf, hi, s', hx => by
    simp only [FullAll, Full] at hf
    simp only [instRows] at hi
    split at hi
    · next e es' h1 h2 =>
      cases hi
      simp only [valueRows] at hx
      split at hx
      · next y ys' h3 h4 =>
        cases hx
        rw [value_fullList r s e y hs hf.1.2 h1 s' h3, value_fullRows l s es' ys' hs hf.2 h2 s' h4]
      · cases hx
    · cases hi
  | .none :: _, _, _, _, _, _, hi, _, _ => by simp [instRows] at hi
  | .nan :: _, _, _, _, _, _, hi, _, _ => by simp [instRows] at hi
  | .inf :: _, _, _, _, _, _, hi, _, _ => by simp [instRows] at hi
  | .bool _ :: _, _, _, _, _, _, hi, _, _ => by simp [instRows] at hi
  | .int _ :: _, _, _, _, _, _, hi, _, _ => by simp [instRows] at hi
  | .float _ :: _, _, _, _, _, _, hi, _, _ => by simp [instRows] at hi
  | .str _ :: _, _, _, _, _, _, hi, _, _ => by simp [instRows] at hi
  | .dict _ :: _, _, _, _, _, _, hi, _, _ => by simp [instRows] at hi
theorem value_fullItems : ∀ (l : List (String × PyVal)) (ks vs : Schema) (es : List (Entry × Entry))
    (ys : List (String × PyVal)), NoCustomItems ks → NoCustomItems vs → FullItems l → instItems ks vs l = some es →
    valueItems es = some ys → ys = l
  | [], ks, vs, es, ys, hks, hvs, hf, hi, hx => by
    simp only [instItems, Option.some.injEq] at hi; subst hi
    simp only [valueItems, Option.some.injEq] at hx; exact hx.symm
  | (k, v) :: l, ks, vs, es, ys, hks, hvs, hf, hi, hx => by
    simp only [FullItems] at hf
    simp only [instItems] at hi
    split at hi
    · next ke ve es' h1 h2 h3 =>
      cases hi
      simp only [valueItems] at hx
      split at hx
      · next t y ys' h4 h5 h6 =>
        cases hx
        have e0 : PyVal.str t = PyVal.str k := instPrim_full (by simp only [Full]; exact hf.1) h1 h4
        cases e0
        have hsub : NoCustomItems (match vs.lookup "schema" with
            | some (.dict d) => match d.lookup k with
              | some (.dict s) => s
              | _ => d
            | _ => vs) := by
          split
          · next d hd =>
            have hd' := noCustom_lookup hvs hd
            simp only [NoCustom] at hd'
            split
            · next s hs' =>
              have := noCustom_lookup hd' hs'
              simpa only [NoCustom] using this
            · exact hd'
          · exact hvs
        rw [value_full v _ ve y hsub hf.2.1 h2 h5, value_fullItems l ks vs es' ys' hks hvs hf.2.2 h3 h6]
      · cases hx
    · cases hi
end

/-- Whatever the schema (as long as it names no `customList`, whose strings stand for ranges): a value in which nothing is
missing reaches the program unchanged, or not at all. -/
theorem C91_unchanged (sch : Schema) (v x : PyVal) (hs : NoCustomItems sch) (hf : Full v)
    (hx : loadedValue sch v = some x) : x = v := by
  obtain ⟨e, he, hv⟩ := Option.bind_eq_some_iff.mp hx
  exact value_full v sch e x hs hf he hv

example : NoCustomItems [("dtype", .str "list"), ("list-dtype", .str "list"), ("list-list-dtype", .str "int")] ∧
    Full (.list [.list [.int 0, .int 1]]) ∧
    (loadedValue [("dtype", .str "list"), ("list-dtype", .str "list"), ("list-list-dtype", .str "int")]
      (.list [.list [.int 0, .int 1]])).isSome := by
  refine ⟨by simp [NoCustomItems, NoCustom], by simp [Full, FullAll], by decide +kernel⟩

/-- A list of numbers or strings with a default: the missing elements, and only they, become the default. -/
theorem C91_defaults (t : String) (ht : t ∈ ["int", "float", "str", "bool"]) (d : PyVal) (l : List PyVal) :
    loadedValue [("dtype", .str "list"), ("list-dtype", .str t), ("default-value", d)] (.list l) =
      some (.list (l.map fun x => if x.isNull then d else x)) := by
  have hcd : droppedKeys.contains "default-value" = false ∧ stripKey schemaPrefixes "default-value" = "default-value" := by
    decide +kernel
  have hs : Schema.inner [("dtype", .str "list"), ("list-dtype", .str t), ("default-value", d)] =
      [("dtype", .str t), ("default-value", d)] := by
    simp [Schema.inner, Schema.set, contains_keys, strip_keys, hcd, -List.contains_eq_mem]
  have hk : ∃ k, Schema.kind [("dtype", .str t), ("default-value", d)] = some k ∧ k ≠ .list ∧ k ≠ .list2D ∧
      k ≠ .customList ∧ k ≠ .dict ∧ k ≠ .file ∧ k ≠ .directory := by
    simp at ht
    rcases ht with rfl | rfl | rfl | rfl
    · exact ⟨.int, by simp [Schema.kind, List.lookup, kindOf], by decide, by decide, by decide, by decide, by decide, by decide⟩
    · exact ⟨.float, by simp [Schema.kind, List.lookup, kindOf], by decide, by decide, by decide, by decide, by decide, by decide⟩
    · exact ⟨.str, by simp [Schema.kind, List.lookup, kindOf], by decide, by decide, by decide, by decide, by decide, by decide⟩
    · exact ⟨.bool, by simp [Schema.kind, List.lookup, kindOf], by decide, by decide, by decide, by decide, by decide, by decide⟩
  obtain ⟨k, hk, h1, h2, h3, h4, h5, h6⟩ := hk
  have hin : ∀ l, instList [("dtype", .str t), ("default-value", d)] l =
      some (l.map fun x => .prim k [("dtype", .str t), ("default-value", d)] x) := by
    intro l
    induction l with
    | nil => simp [instList]
    | cons x l ih => simp [instList, ih, instantiate_prim x hk h1 h2 h3 h4]
  have hval : ∀ l : List PyVal, valueList [("dtype", .str t), ("default-value", d)]
      (l.map fun x => .prim k [("dtype", .str t), ("default-value", d)] x) =
      some (l.map fun x => if x.isNull then d else x) := by
    intro l
    induction l with
    | nil => simp [valueList]
    | cons x l ih =>
      have hp : primValue k [("dtype", .str t), ("default-value", d)] x = some (if x.isNull then .none else x) := by
        cases k <;> simp_all [primValue]
      simp only [List.map_cons, valueList, Entry.value, hp, ih]
      cases hx : x.isNull with
      | true => simp [orDefault, PyVal.isNull, List.lookup]
      | false => simp [orDefault, hx]
  have hi : instantiate [("dtype", .str "list"), ("list-dtype", .str t), ("default-value", d)] (.list l) =
      some (.list [("dtype", .str t), ("default-value", d)]
        (l.map fun x => .prim k [("dtype", .str t), ("default-value", d)] x)) := by
    have : Schema.kind [("dtype", .str "list"), ("list-dtype", .str t), ("default-value", d)] = some .list := by
      simp [Schema.kind, List.lookup, kindOf]
    simp [instantiate, this, hs, hin]
  simp [loadedValue, hi, Entry.value, hval]

example : loadedValue [("dtype", .str "list"), ("list-dtype", .str "int"), ("default-value", .int 9)]
    (.list [.none, .int 3]) = some (.list [.int 9, .int 3]) := by
  rw [C91_defaults "int" (by simp)]; simp [PyVal.isNull]

/-- A default is *not* filled in for a missing scalar or for a missing value of a dictionary: the program gets `None`. -/
theorem C91_default_false :
    loadedValue [("dtype", .str "int"), ("default-value", .int 9)] .none = some .none ∧
      loadedValue [("dtype", .str "dict"), ("dict-key-dtype", .str "str"), ("dict-value-dtype", .str "int"),
        ("default-value", .int 9)] (.dict [("a", .none)]) = some (.dict [("a", .none)]) := by
  have hcd : droppedKeys.contains "default-value" = false ∧ stripKey schemaPrefixes "default-value" = "default-value" ∧
      "key-".toList.isPrefixOf "default-value".toList = false ∧ "value-".toList.isPrefixOf "default-value".toList = false := by
    decide +kernel
  constructor
  · simp [loadedValue, instantiate, instPrim, Schema.kind, List.lookup, kindOf, Entry.value, primValue, PyVal.isNull]
  · simp [loadedValue, instantiate, instItems, instPrim, Schema.kind, List.lookup, kindOf, Entry.value, valueItems, primValue,
      PyVal.isNull, Schema.inner, Schema.sub, Schema.set, contains_keys, strip_keys, sub_keys, hcd, -List.contains_eq_mem]

end GeNSIT
