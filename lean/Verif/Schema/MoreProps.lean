import Verif.Schema.Props

/-!
# More about the schema checks: numeric text, exact lengths, tables, range lists, missing values (C87, C89, C90, C91)
-/

set_option linter.unusedSimpArgs false

namespace GeNSIT

open Spec

/-! ## C87: numbers written as text -/

theorem pyInt_bad_char (cs : List Char) (c : Char) (hc : c ∈ cs) (h1 : c.isDigit = false) (h2 : c ≠ '-') (h3 : c ≠ '+') :
    pyInt cs = none := by
  have hn : ∀ ds : List Char, c ∈ ds → pyNat ds = none := by
    intro ds hd
    unfold pyNat
    split
    · rfl
    · rw [if_neg]
      intro hall
      have := List.all_eq_true.1 hall c hd
      rw [h1] at this; cases this
  unfold pyInt
  split
  · next ds =>
    rcases List.mem_cons.1 hc with h | h
    · exact absurd h h2
    · rw [hn ds h]; rfl
  · next ds =>
    rcases List.mem_cons.1 hc with h | h
    · exact absurd h h3
    · rw [hn ds h]; rfl
  · rw [hn cs hc]; rfl

/-- **C87.**  A setting declared as an integer written as text, with a range: the decimal text of an integer is accepted exactly
when the integer lies in the range; a text with any character other than digits and signs, and any value that is not a text, is
refused. -/
theorem C87_numeric_text (w : World) (sch : Schema) (a b : PyVal) (lo hi : Option ℚ)
    (ht : sch.lookup "dtype" = some (.str "strInt")) (hr : sch.lookup "valid-range" = some (.list [a, b]))
    (ha : IsEnd a lo) (hb : IsEnd b hi) (hn : sch.lookup "allow-nan" = none) (hi' : sch.lookup "inclusive" = none)
    (hs : sch.lookup "is-any-of" = none) :
    (∀ z : ℤ, passes w sch (.str (String.ofList (showInt z))) = true ↔ InClosed lo hi (z : ℚ)) ∧
    (∀ s : String, (∃ c ∈ s.toList, c.isDigit = false ∧ c ≠ '-' ∧ c ≠ '+') → passes w sch (.str s) = false) ∧
    (∀ v, (∀ s, v ≠ .str s) → passes w sch v = false) := by
  have hk : sch.kind = some .strInt := by simp [Schema.kind, ht, kindOf]
  have hna : sch.flag "allow-nan" false = false := by simp [Schema.flag, hn]
  refine ⟨?_, ?_, ?_⟩
  · intro z
    rw [passes_prim _ hk (by decide) (by decide) (by decide) (by decide)]
    have hsc : scopeOk sch (.int z) = true := by simp [scopeOk, hs]
    simp only [checkPrim, typeOk, isInst, Bool.true_or, Bool.true_and, String.toList_ofList, pyInt_showInt, hsc, Bool.and_true]
    rw [rangeOk_closed hr ha hb hi']
    constructor
    · rintro (⟨x, hx, hc⟩ | ⟨h, _⟩)
      · cases hx with
        | int h => cases h; exact hc
      · cases h
    · intro h
      exact Or.inl ⟨z, .int (.int z), h⟩
  · rintro s ⟨c, hc, h1, h2, h3⟩
    rw [passes_prim _ hk (by decide) (by decide) (by decide) (by decide)]
    simp only [checkPrim, pyInt_bad_char s.toList c hc h1 h2 h3, Bool.and_false]
  · intro v hv
    rw [passes_prim _ hk (by decide) (by decide) (by decide) (by decide)]
    cases v with
    | str s => exact absurd rfl (hv s)
    | _ => simp [checkPrim, typeOk, hna, isInst]

example :
    let sch : Schema := [("dtype", .str "strInt"), ("valid-range", .list [.int 0, .int 10])]
    passes demoWorld sch (.str "7") = true ∧ passes demoWorld sch (.str "11") = false ∧ passes demoWorld sch (.str "x") = false := by
  intro sch
  refine ⟨by decide +kernel, by decide +kernel, by decide +kernel⟩

/-! ## C89: missing files -/

/-- **C89.**  `allow-nan` does not make a file optional: `None`, NaN, lists and dictionaries are refused, while texts, integers and
booleans are accepted. -/
theorem C89_allow_nan (w : World) (sch : Schema) (v : PyVal)
    (ht : sch.lookup "dtype" = some (.str "file") ∨ sch.lookup "dtype" = some (.str "directory"))
    (hn : sch.lookup "allow-nan" = some (.bool true))
    (h1 : sch.lookup "extension" = none) (h2 : sch.lookup "path-exists" = none)
    (h3 : sch.lookup "directory-exists" = none) (h4 : sch.lookup "exists" = none) (h5 : sch.lookup "file-exists" = none) :
    passes w sch v = true ↔ (∃ s, v = .str s) ∨ (∃ z, v = .int z) ∨ ∃ b, v = .bool b := by
  have hE : existsOk w sch v = true := by
    unfold existsOk
    simp [Schema.flag, h2, h3, h4, h5]
  have hna : sch.flag "allow-nan" false = true := by simp [Schema.flag, hn, PyVal.truthy]
  rcases ht with ht | ht
  · have hk : sch.kind = some .file := by simp [Schema.kind, ht, kindOf]
    rw [passes_prim v hk (by decide) (by decide) (by decide) (by decide)]
    simp only [checkPrim, typeOk, hna, Bool.or_true, extensionOk, h1, Bool.and_true, hE, Bool.true_and]
    cases v <;> simp [pathLike]
  · have hk : sch.kind = some .directory := by simp [Schema.kind, ht, kindOf]
    rw [passes_prim v hk (by decide) (by decide) (by decide) (by decide)]
    simp only [checkPrim, typeOk, hna, Bool.or_true, Bool.and_true, hE, Bool.true_and]
    cases v <;> simp [pathLike]

example : passes demoWorld [("dtype", .str "file"), ("allow-nan", .bool true)] .none = false := by decide +kernel

/-! ## C90: exact lengths, tables, range lists -/

/-- **C90.**  A list with a prescribed length. -/
theorem C90_exact_length (w : World) (v a b : PyVal) (lo hi : Option ℚ) (n : ℕ) (ha : IsEnd a lo) (hb : IsEnd b hi) :
    passes w [("dtype", .str "list"), ("list-dtype", .str "int"), ("list-length", .int n), ("valid-range", .list [a, b])] v = true ↔
      ∃ l, v = .list l ∧ l.length = n ∧ ∀ x ∈ l, ∃ z, IsInt x z ∧ InClosed lo hi z := by
  have hs : Schema.inner [("dtype", .str "list"), ("list-dtype", .str "int"), ("list-length", .int n), ("valid-range", .list [a, b])] =
      [("dtype", .str "int"), ("length", .int n), ("valid-range", .list [a, b])] := by
    simp [Schema.inner, Schema.set, contains_keys, strip_keys, -List.contains_eq_mem]
  rw [passes_list w rfl hs rfl (by decide) (by decide) (by decide) (by decide)]
  refine exists_congr fun l => and_congr_right fun hv => ?_
  have hl : lengthOk [("dtype", .str "int"), ("length", .int n), ("valid-range", .list [a, b])] l.length = true ↔ l.length = n := by
    simp [lengthOk, List.lookup]
  rw [hl]
  have hel : ∀ x, passes w [("dtype", .str "int"), ("length", .int n), ("valid-range", .list [a, b])] x = true ↔
      ∃ z, IsInt x z ∧ InClosed lo hi z := fun x => C87_int w _ x a b lo hi rfl rfl ha hb rfl rfl rfl rfl
  simp only [hel]
  simp [uniqueOk, Schema.flag, List.lookup]

example : passes demoWorld [("dtype", .str "list"), ("list-dtype", .str "int"), ("list-length", .int (2 : ℕ)),
    ("valid-range", .list [.none, .none])] (.list [.int 1, .int 5]) = true := by decide +kernel

theorem instRows_prim {s : Schema} {k : Kind} (hk : s.kind = some k) (h1 : k ≠ .list) (h2 : k ≠ .list2D) (h3 : k ≠ .customList)
    (h4 : k ≠ .dict) (rows : List (List PyVal)) :
    instRows s (rows.map .list) = some (rows.map fun r => r.map fun x => .prim k s x) := by
  have hin : ∀ l, instList s l = some (l.map fun x => .prim k s x) := by
    intro l
    induction l with
    | nil => simp [instList]
    | cons x l ih => simp [instList, ih, instantiate_prim x hk h1 h2 h3 h4]
  induction rows with
  | nil => simp [instRows]
  | cons r rs ih => simp [instRows, hin, ih]

theorem instRows_lists {s : Schema} : ∀ {l : List PyVal} {es : List (List Entry)}, instRows s l = some es →
    ∃ rows : List (List PyVal), l = rows.map .list
  | [], _, _ => ⟨[], rfl⟩
  | .list r :: l, es, h => by
    simp only [instRows] at h
    split at h
    · next h1 h2 =>
      obtain ⟨rows, hr⟩ := instRows_lists h2
      exact ⟨r :: rows, by rw [hr]; rfl⟩
    · cases h
  | .none :: l, es, h => by simp [instRows] at h
  | .bool _ :: l, es, h => by simp [instRows] at h
  | .int _ :: l, es, h => by simp [instRows] at h
  | .float _ :: l, es, h => by simp [instRows] at h
  | .nan :: l, es, h => by simp [instRows] at h
  | .inf :: l, es, h => by simp [instRows] at h
  | .str _ :: l, es, h => by simp [instRows] at h
  | .dict _ :: l, es, h => by simp [instRows] at h

theorem checkRows_iff (w : World) (rows : List (List Entry)) : checkRows w rows = true ↔ ∀ r ∈ rows, ∀ e ∈ r, checkElem w e = true := by
  induction rows with
  | nil => simp [checkRows]
  | cons r rs ih => simp [checkRows, ih, checkElems_iff]

/-- **C90.**  A setting declared as a table with given numbers of rows and columns and a range: accepted exactly when it is a
non-empty list of that many lists of that many finite floats in the range. -/
theorem C90_table (w : World) (v a b : PyVal) (lo hi : Option ℚ) (n m : ℕ) (ha : IsEnd a lo) (hb : IsEnd b hi) :
    passes w [("dtype", .str "list2D"), ("list2D-nrows", .int n), ("list2D-ncols", .int m), ("list2D-dtype", .str "float"),
        ("valid-range", .list [a, b])] v = true ↔
      ∃ rows : List (List PyVal), v = .list (rows.map .list) ∧ rows ≠ [] ∧ rows.length = n ∧
        ∀ r ∈ rows, r.length = m ∧ ∀ x ∈ r, ∃ q, x = .float q ∧ InClosed lo hi q := by
  set sch : Schema := [("dtype", .str "list2D"), ("list2D-nrows", .int n), ("list2D-ncols", .int m),
    ("list2D-dtype", .str "float"), ("valid-range", .list [a, b])] with hsch
  set s : Schema := [("nrows", .int n), ("ncols", .int m), ("dtype", .str "float"), ("valid-range", .list [a, b])] with hs'
  have hs : sch.inner = s := by
    simp [hsch, hs', Schema.inner, Schema.set, contains_keys, strip_keys, -List.contains_eq_mem]
  have hkind : sch.kind = some .list2D := rfl
  have hk : s.kind = some .float := rfl
  have hel : ∀ x, checkElem w (.prim .float s x) = true ↔ ∃ q, x = .float q ∧ InClosed lo hi q := by
    intro x
    have := C87_float w s x a b lo hi rfl rfl ha hb rfl rfl rfl rfl
    rw [passes_prim x hk (by decide) (by decide) (by decide) (by decide)] at this
    simpa [checkElem] using this
  have hchk : ∀ rows : List (List PyVal), passes w sch (.list (rows.map .list)) = true ↔ rows ≠ [] ∧ rows.length = n ∧
        ∀ r ∈ rows, r.length = m ∧ ∀ x ∈ r, ∃ q, x = .float q ∧ InClosed lo hi q := by
    intro rows
    have hi2 : instantiate sch (.list (rows.map .list)) =
        some (.list2D s (rows.map fun r => r.map fun x => .prim .float s x)) := by
      simp only [instantiate, hkind, hs]
      rw [instRows_prim hk (by decide) (by decide) (by decide) (by decide)]
      rfl
    have hp : passes w sch (.list (rows.map .list)) = (Entry.list2D s (rows.map fun r => r.map fun x => .prim .float s x)).check w := by
      simp only [passes, hi2]
    rw [hp]
    have hd : dimsOk s (rows.map fun r => r.map fun x => Entry.prim .float s x) = true ↔
        rows.length = n ∧ rows ≠ [] ∧ ∀ r ∈ rows, r.length = m := by
      have e1 : s.lookup "nrows" = some (.int n) := rfl
      have e2 : s.lookup "ncols" = some (.int m) := rfl
      unfold dimsOk
      rw [e1, e2]
      simp [List.all_eq_true, and_assoc]
    simp only [Entry.check, Bool.and_eq_true, hd, checkRows_iff, List.mem_map, forall_exists_index, and_imp,
      forall_apply_eq_imp_iff₂, hel]
    constructor
    · rintro ⟨⟨h1, h2, h3⟩, h4⟩
      exact ⟨h2, h1, fun r hr => ⟨h3 r hr, h4 r hr⟩⟩
    · rintro ⟨h2, h1, h3⟩
      exact ⟨⟨h1, h2, fun r hr => (h3 r hr).1⟩, fun r hr => (h3 r hr).2⟩
  constructor
  · intro h
    have hv : ∃ rows : List (List PyVal), v = .list (rows.map .list) := by
      cases v with
      | list l =>
        have : ∃ es, instRows s l = some es := by
          cases hr : instRows s l with
          | some es => exact ⟨es, rfl⟩
          | none => simp [passes, instantiate, hkind, hs, hr] at h
        obtain ⟨es, hes⟩ := this
        obtain ⟨rows, hr⟩ := instRows_lists hes
        exact ⟨rows, by rw [hr]⟩
      | _ => simp [passes, instantiate, hkind, instPrim] at h
    obtain ⟨rows, rfl⟩ := hv
    exact ⟨rows, rfl, (hchk rows).1 h⟩
  · rintro ⟨rows, rfl, h⟩
    exact (hchk rows).2 h

example : ∃ rows : List (List PyVal), PyVal.list [.list [.float 1, .float 0], .list [.float 0, .float 1]] = .list (rows.map .list) ∧
    rows ≠ [] ∧ rows.length = 2 ∧ ∀ r ∈ rows, r.length = 2 ∧ ∀ x ∈ r, ∃ q, x = .float q ∧ InClosed (some 0) none q := by
  refine ⟨[[.float 1, .float 0], [.float 0, .float 1]], rfl, by simp, rfl, ?_⟩
  intro r hr
  have h01 : InClosed (some (0 : ℚ)) none 0 ∧ InClosed (some (0 : ℚ)) none 1 := by
    refine ⟨⟨?_, ?_⟩, ⟨?_, ?_⟩⟩ <;> intro l hl <;> simp at hl <;> subst hl <;> norm_num
  simp at hr
  rcases hr with rfl | rfl
  · exact ⟨rfl, by simp [h01]⟩
  · exact ⟨rfl, by simp [h01]⟩

/-- How one element of a range list expands: a text as a range string, anything else as itself. -/
inductive Spec.Expands (inclusive : Bool) : PyVal → List PyVal → Prop
  | text (s : String) (xs : List ℤ) (h : parseEntry s.toList inclusive = .values xs) : Expands inclusive (.str s) (xs.map .int)
  | other (v : PyVal) (h : ∀ s, v ≠ .str s) : Expands inclusive v [v]

theorem parseCustom_ok (inclusive : Bool) (l : List PyVal) (xs : List PyVal) :
    parseCustom inclusive l = some (xs, true) ↔ ∃ xss, List.Forall₂ (Expands inclusive) l xss ∧ xs = xss.flatten := by
  induction l generalizing xs with
  | nil =>
    constructor
    · intro h; simp [parseCustom] at h; exact ⟨[], .nil, by simp [h]⟩
    · rintro ⟨xss, h, rfl⟩; cases h; simp [parseCustom]
  | cons v l ih =>
    have hother : (∀ s, v ≠ .str s) → (parseCustom inclusive (v :: l) = some (xs, true) ↔
        ∃ xss, List.Forall₂ (Expands inclusive) (v :: l) xss ∧ xs = xss.flatten) := by
      intro hv
      have e : parseCustom inclusive (v :: l) = (parseCustom inclusive l).map fun r => (v :: r.1, r.2) := by
        cases v <;> simp [parseCustom] at hv ⊢
      rw [e, Option.map_eq_some_iff]
      constructor
      · rintro ⟨⟨ys, b⟩, h1, h2⟩
        simp only [Prod.mk.injEq] at h2
        obtain ⟨h2, rfl⟩ := h2
        obtain ⟨yss, h3, h4⟩ := (ih ys).1 h1
        exact ⟨[v] :: yss, .cons (.other v hv) h3, by rw [← h2, h4]; rfl⟩
      · rintro ⟨xss, h, rfl⟩
        cases h with
        | cons h1 h2 =>
          cases h1 with
          | text s xs h => exact absurd rfl (hv s)
          | other _ _ => exact ⟨(_, true), (ih _).2 ⟨_, h2, rfl⟩, rfl⟩
    cases v with
    | str s =>
      constructor
      · intro h
        simp only [parseCustom] at h
        split at h
        · cases h
        · obtain ⟨⟨ys, b⟩, _, h2⟩ := Option.map_eq_some_iff.1 h
          simp at h2
        · next zs hz =>
          obtain ⟨⟨ys, b⟩, h1, h2⟩ := Option.map_eq_some_iff.1 h
          simp only [Prod.mk.injEq] at h2
          obtain ⟨h2, rfl⟩ := h2
          obtain ⟨yss, h3, h4⟩ := (ih ys).1 h1
          exact ⟨zs.map .int :: yss, .cons (.text s zs hz) h3, by rw [← h2, h4]; rfl⟩
      · rintro ⟨xss, h, rfl⟩
        cases h with
        | cons h1 h2 =>
          cases h1 with
          | text _ zs hz =>
            rename_i yss
            simp only [parseCustom, hz, (ih _).2 ⟨yss, h2, rfl⟩, Option.map_some, List.flatten_cons]
          | other _ hv => exact absurd rfl (hv s)
    | none => exact hother (by simp)
    | bool _ => exact hother (by simp)
    | int _ => exact hother (by simp)
    | float _ => exact hother (by simp)
    | nan => exact hother (by simp)
    | inf => exact hother (by simp)
    | list _ => exact hother (by simp)
    | dict _ => exact hother (by simp)

theorem mapM_instPrim {s : Schema} {k : Kind} (hk : s.kind = some k) (h1 : k ≠ .list) (h2 : k ≠ .list2D) (h3 : k ≠ .customList)
    (h4 : k ≠ .dict) (l : List PyVal) : l.mapM (instPrim s) = some (l.map fun x => .prim k s x) := by
  have hp : ∀ v, instPrim s v = some (.prim k s v) := by
    intro v; unfold instPrim; rw [hk]; cases k <;> simp_all
  induction l with
  | nil => rfl
  | cons x l ih => simp [List.mapM_cons, hp, ih]

/-- **C90, C91.**  A list setting that may contain range strings is accepted exactly when every element expands and the expanded
list has an allowed length and consists of integers in the range; and then what reaches the program is the expanded list. -/
theorem C90_range_list (w : World) (l : List PyVal) (la lb a b : PyVal) (llo lhi lo hi : Option ℚ)
    (hla : IsEnd la llo) (hlb : IsEnd lb lhi) (ha : IsEnd a lo) (hb : IsEnd b hi)  :
    let sch : Schema := [("dtype", .str "customList"), ("list-dtype", .str "int"), ("list-length", .list [la, lb]),
      ("valid-range", .list [a, b])]
    (passes w sch (.list l) = true ↔ ∃ xss, List.Forall₂ (Expands true) l xss ∧ InClosed llo lhi (xss.flatten.length : ℚ) ∧
      ∀ x ∈ xss.flatten, ∃ z, IsInt x z ∧ InClosed lo hi z) ∧
    (∀ xss, List.Forall₂ (Expands true) l xss → (∀ x ∈ xss.flatten, ∃ z, IsInt x z) →
      loadedValue sch (.list l) = some (.list xss.flatten)) := by
  intro sch
  set s : Schema := [("dtype", .str "int"), ("length", .list [la, lb]), ("valid-range", .list [a, b])] with hs'
  have hs : sch.inner = s := by
    simp [sch, hs', Schema.inner, Schema.set, contains_keys, strip_keys, -List.contains_eq_mem]
  have hkind : sch.kind = some .customList := rfl
  have hk : s.kind = some .int := rfl
  have hinc : sch.flag "inclusive" true = true := rfl
  have hinst : ∀ ys ok, parseCustom true l = some (ys, ok) → instantiate sch (.list l) =
      some (.custom s ok (ys.map fun x => .prim .int s x)) := by
    intro ys ok h
    simp only [instantiate, hkind, instCustom, hinc, h, hs]
    rw [mapM_instPrim hk (by decide) (by decide) (by decide) (by decide)]
    rfl
  have hel : ∀ x, checkElem w (.prim .int s x) = true ↔ ∃ z, IsInt x z ∧ InClosed lo hi z := by
    intro x
    have := C87_int w s x a b lo hi rfl rfl ha hb rfl rfl rfl rfl
    rw [passes_prim x hk (by decide) (by decide) (by decide) (by decide)] at this
    simpa [checkElem] using this
  have hchk : ∀ ys ok, parseCustom true l = some (ys, ok) → (passes w sch (.list l) = true ↔ ok = true ∧
      InClosed llo lhi (ys.length : ℚ) ∧ ∀ x ∈ ys, ∃ z, IsInt x z ∧ InClosed lo hi z) := by
    intro ys ok h
    have hp : passes w sch (.list l) = (Entry.custom s ok (ys.map fun x => .prim .int s x)).check w := by
      simp only [passes, hinst ys ok h]
    rw [hp]
    simp only [Entry.check, Bool.and_eq_true, List.length_map, checkElems_iff, List.mem_map, forall_exists_index, and_imp,
      forall_apply_eq_imp_iff₂, hel, and_assoc, lengthOk_range (s := s) rfl hla hlb]
  refine ⟨⟨?_, ?_⟩, ?_⟩
  · intro h
    cases hp : parseCustom true l with
    | none => simp [passes, instantiate, hkind, instCustom, hinc, hp] at h
    | some r =>
      obtain ⟨ys, ok⟩ := r
      obtain ⟨rfl, h2, h3⟩ := (hchk ys ok hp).1 h
      obtain ⟨xss, h4, rfl⟩ := (parseCustom_ok true l ys).1 hp
      exact ⟨xss, h4, h2, h3⟩
  · rintro ⟨xss, h1, h2, h3⟩
    exact (hchk _ true ((parseCustom_ok true l _).2 ⟨xss, h1, rfl⟩)).2 ⟨rfl, h2, h3⟩
  · intro xss h1 h2
    have hi2 := hinst _ true ((parseCustom_ok true l _).2 ⟨xss, h1, rfl⟩)
    have hv : ∀ ys : List PyVal, (∀ x ∈ ys, ∃ z, IsInt x z) → valueList s (ys.map fun x => .prim .int s x) = some ys := by
      intro ys hy
      induction ys with
      | nil => simp [valueList]
      | cons x ys ih =>
        obtain ⟨z, hz⟩ := hy x (by simp)
        have := ih fun y hy' => hy y (List.mem_cons_of_mem _ hy')
        simp only [List.map_cons, valueList, Entry.value, this]
        cases hz <;> simp [primValue, PyVal.isNull, orDefault]
    simp only [loadedValue, hi2, Option.bind_some, Entry.value, hv _ h2, Option.map_some]

example : List.Forall₂ (Expands true) [.int 9, .str "1:3"] [[.int 9], [.int 1, .int 2, .int 3]] :=
  .cons (.other _ (by simp)) (.cons (.text "1:3" [1, 2, 3] (by decide +kernel)) .nil)

/-! ## C91: what counts as missing -/

/-- A missing scalar: `None`, NaN or the empty text. -/
def Spec.MissingScalar (v : PyVal) : Prop := v = .none ∨ v = .nan ∨ v = .str ""

/-- **C91.**  In a list of scalars with a default, the elements `None`, NaN and the empty text become the default and all others
stay as they are, in their places. -/
theorem C91_missing_elements (t : String) (ht : t ∈ ["int", "float", "str", "bool"]) (d : PyVal) (l : List PyVal)
    (hl : ∀ x ∈ l, (∀ m, x ≠ .list m) ∧ ∀ m, x ≠ .dict m) :
    ∃ ys, loadedValue [("dtype", .str "list"), ("list-dtype", .str t), ("default-value", d)] (.list l) = some (.list ys) ∧
      List.Forall₂ (fun x y => (MissingScalar x → y = d) ∧ (¬ MissingScalar x → y = x)) l ys := by
  refine ⟨_, C91_defaults t ht d l, ?_⟩
  induction l with
  | nil => exact .nil
  | cons x l ih =>
    refine .cons ?_ (ih fun y hy => hl y (List.mem_cons_of_mem _ hy))
    obtain ⟨h1, h2⟩ := hl x (by simp)
    have : x.isNull = true ↔ MissingScalar x := by
      cases x with
      | list m => exact absurd rfl (h1 m)
      | dict m => exact absurd rfl (h2 m)
      | str s => simp [PyVal.isNull, MissingScalar]
      | _ => simp [PyVal.isNull, MissingScalar]
    constructor
    · intro h; exact if_pos (this.2 h)
    · intro h; exact if_neg (fun h' => h (this.1 h'))

example : loadedValue [("dtype", .str "list"), ("list-dtype", .str "float"), ("default-value", .float 9)]
    (.list [.nan, .float 3, .none]) = some (.list [.float 9, .float 3, .float 9]) := by
  rw [C91_defaults "float" (by simp)]; simp [PyVal.isNull]

end GeNSIT
