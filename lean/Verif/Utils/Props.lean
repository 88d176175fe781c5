import Verif.Utils.Lemmas

/-!
# Properties of the utilities: C41, C42, C44, C45
-/

set_option linter.unusedSimpArgs false
set_option linter.unusedVariables false

namespace GeNSIT

open Spec

/-! ## C41 -/

/-- Inclusive range checks accept exactly the closed interval, a missing end being unbounded; the validation of a setting
does the same. -/
theorem C41_inclusive_partial {α : Type} [LinearOrder α] (x : α) (lo hi : Option α) (allowNan : Bool) :
    (inRange (.num x) lo hi allowNan true = some true ↔ InClosed lo hi x) ∧
    (inRange (.num x) lo hi allowNan true = some false ↔ ¬ InClosed lo hi x) ∧
    (checkRange (.num x) lo hi allowNan true = true ↔ InClosed lo hi x) := by
  unfold checkRange inRange InClosed
  cases lo with
  | none =>
    cases hi with
    | none => simp
    | some h => simp
  | some l =>
    cases hi with
    | none => simp
    | some h =>
      by_cases h1 : l ≤ x <;> by_cases h2 : x ≤ h <;> simp [h1, h2]

example : inRange (.num (3 : Int)) (some 3) (some 5) false true = some true := by decide
example : inRange (.num (6 : Int)) none (some 5) false true = some false := by decide

/-- Missing and non-finite values are accepted exactly when the schema allows them. -/
theorem C41_missing {α : Type} [LinearOrder α] (lo hi : Option α) (allowNan inclusive : Bool) :
    (checkRange (.missing : NumVal α) lo hi allowNan inclusive = true ↔ allowNan = true) ∧
    (checkRange (.nonFinite : NumVal α) lo hi allowNan inclusive = true ↔ allowNan = true) := by
  simp [checkRange, inRange]

/-- Exclusive range checks without an upper limit accept exactly the open half-line. -/
theorem C41_exclusive_partial {α : Type} [LinearOrder α] (x : α) (lo : Option α) (allowNan : Bool) :
    checkRange (.num x) lo none allowNan false = true ↔ InOpen lo none x := by
  cases lo <;> simp [checkRange, inRange, InOpen]

example : checkRange (.num (4 : Int)) (some 3) none false false = true := by decide

/-- The full property fails for exclusive checks: with an upper limit no value whatever is accepted (the code compares with
the lower limit twice), and with only an upper limit the comparison itself raises. -/
theorem C41_exclusive_false {α : Type} [LinearOrder α] (x : α) (lo : Option α) (h : α) (allowNan : Bool) :
    checkRange (.num x) lo (some h) allowNan false = false ∧
    (lo = none → inRange (.num x) lo (some h) allowNan false = none) := by
  cases lo with
  | none => simp [checkRange, inRange]
  | some l =>
    by_cases h1 : l < x
    · simp [checkRange, inRange, h1, not_lt.mpr h1.le]
    · simp [checkRange, inRange, h1]

/-- A value strictly inside an open interval and yet refused. -/
example : InOpen (some (0 : Int)) (some 10) 5 ∧ checkRange (.num (5 : Int)) (some 0) (some 10) false false = false := by
  refine ⟨⟨?_, ?_⟩, by decide⟩ <;> intro l hl <;> simp only [Option.some.injEq] at hl <;> omega

/-! ## C42 -/

theorem parseEntry_two (a b : Int) (ha : -2 ^ 24 ≤ a) (ha' : a ≤ 2 ^ 24) (hb : -2 ^ 24 ≤ b) (hb' : b ≤ 2 ^ 24) (inclusive : Bool) :
    parseEntry (showInt a ++ ':' :: showInt b) inclusive = .ofOption (arange a (if inclusive then b + 1 else b) 1) := by
  have hn : ∀ z : Int, ':' ∉ showInt z := fun z => showInt_not z ':' (by decide) (by decide)
  unfold parseEntry
  rw [if_pos (by simp), pySplit_append ':' _ _ (hn a), pySplit_noSep ':' _ (hn b)]
  simp [List.mapM_cons, stringToNumeric_showInt a ha ha', stringToNumeric_showInt b hb hb']

theorem parseEntry_three (a b s : Int) (ha : -2 ^ 24 ≤ a) (ha' : a ≤ 2 ^ 24) (hb : -2 ^ 24 ≤ b) (hb' : b ≤ 2 ^ 24)
    (hs : -2 ^ 24 ≤ s) (hs' : s ≤ 2 ^ 24) (inclusive : Bool) :
    parseEntry (showInt a ++ ':' :: (showInt b ++ ':' :: showInt s)) inclusive =
      .ofOption (arange a (if inclusive then b + 1 else b) s) := by
  have hn : ∀ z : Int, ':' ∉ showInt z := fun z => showInt_not z ':' (by decide) (by decide)
  unfold parseEntry
  rw [if_pos (by simp), pySplit_append ':' _ _ (hn a), pySplit_append ':' _ _ (hn b), pySplit_noSep ':' _ (hn s)]
  simp [List.mapM_cons, stringToNumeric_showInt a ha ha', stringToNumeric_showInt b hb hb', stringToNumeric_showInt s hs hs']

/-- `"a:b"` expands to the integers from `a` to `b` in increasing order (both ends when inclusive, without `b` when not), for
every `a`, `b` up to `2^24` in absolute value. -/
theorem C42_pair_partial (a b : Int) (ha : -2 ^ 24 ≤ a) (ha' : a ≤ 2 ^ 24) (hb : -2 ^ 24 ≤ b) (hb' : b ≤ 2 ^ 24) :
    (∃ xs, parseEntry (showInt a ++ ':' :: showInt b) true = .values xs ∧ ListsIncreasing xs fun x => a ≤ x ∧ x ≤ b) ∧
    (∃ xs, parseEntry (showInt a ++ ':' :: showInt b) false = .values xs ∧ ListsIncreasing xs fun x => a ≤ x ∧ x < b) := by
  constructor
  · obtain ⟨xs, h1, h2, h3⟩ := arange_pos a (b + 1) 1 (by norm_num)
    refine ⟨xs, by simp [parseEntry_two a b ha ha' hb hb', h1, Parsed.ofOption], h2, fun x => ?_⟩
    rw [h3]; simp; omega
  · obtain ⟨xs, h1, h2, h3⟩ := arange_pos a b 1 (by norm_num)
    refine ⟨xs, by simp [parseEntry_two a b ha ha' hb hb', h1, Parsed.ofOption], h2, fun x => ?_⟩
    rw [h3]; simp

example : parseEntry "2:5".toList true = .values [2, 3, 4, 5] := by decide +kernel

/-- `"a:b:s"` with a positive step expands to `a, a+s, …` not exceeding `b`. -/
theorem C42_step_partial (a b s : Int) (ha : -2 ^ 24 ≤ a) (ha' : a ≤ 2 ^ 24) (hb : -2 ^ 24 ≤ b) (hb' : b ≤ 2 ^ 24)
    (hs : 0 < s) (hs' : s ≤ 2 ^ 24) :
    (∃ xs, parseEntry (showInt a ++ ':' :: (showInt b ++ ':' :: showInt s)) true = .values xs ∧
      ListsIncreasing xs fun x => a ≤ x ∧ x ≤ b ∧ s ∣ x - a) ∧
    (∃ xs, parseEntry (showInt a ++ ':' :: (showInt b ++ ':' :: showInt s)) false = .values xs ∧
      ListsIncreasing xs fun x => a ≤ x ∧ x < b ∧ s ∣ x - a) := by
  have hs0 : -2 ^ 24 ≤ s := le_trans (by norm_num) hs.le
  constructor
  · obtain ⟨xs, h1, h2, h3⟩ := arange_pos a (b + 1) s hs
    refine ⟨xs, by simp [parseEntry_three a b s ha ha' hb hb' hs0 hs', h1, Parsed.ofOption], h2, fun x => ?_⟩
    rw [h3]
    constructor <;> rintro ⟨h4, h5, h6⟩ <;> exact ⟨h4, by omega, h6⟩
  · obtain ⟨xs, h1, h2, h3⟩ := arange_pos a b s hs
    exact ⟨xs, by simp [parseEntry_three a b s ha ha' hb hb' hs0 hs', h1, Parsed.ofOption], h2, h3⟩

example : parseEntry "1:10:4".toList true = .values [1, 5, 9] := by decide +kernel

/-- A descending inclusive range stops two short: it lists the values from `a` down to (excluding) `b + 1`. -/
theorem C42_descending_false (a b s : Int) (ha : -2 ^ 24 ≤ a) (ha' : a ≤ 2 ^ 24) (hb : -2 ^ 24 ≤ b) (hb' : b ≤ 2 ^ 24)
    (hs : s < 0) (hs' : -2 ^ 24 ≤ s) :
    ∃ xs, parseEntry (showInt a ++ ':' :: (showInt b ++ ':' :: showInt s)) true = .values xs ∧
      ListsDecreasing xs fun x => x ≤ a ∧ b + 1 < x ∧ s ∣ x - a := by
  obtain ⟨xs, h1, h2⟩ := arange_neg a (b + 1) s hs
  exact ⟨xs, by simp [parseEntry_three a b s ha ha' hb hb' hs' (le_trans hs.le (by norm_num)), h1, Parsed.ofOption], h2⟩

example : parseEntry "5:1:-1".toList true = .values [5, 4, 3] := by decide +kernel

/-- More than two colons are never accepted. -/
theorem C42_colons_partial (s : List Char) (inclusive : Bool) (h : 2 < s.count ':') (xs : List Int) :
    parseEntry s inclusive ≠ .values xs := by
  have hm : ':' ∈ s := List.count_pos_iff.mp (by omega)
  have hl := pySplit_length ':' s
  unfold parseEntry
  rw [if_pos hm]
  cases hc : (pySplit ':' s).mapM stringToNumeric with
  | none => simp
  | some ys =>
    have := mapM_length _ _ _ hc
    match ys, this with
    | [], _ => simp
    | [y], _ => simp
    | [y, z], h' => simp at h'; omega
    | [y, z, w], h' => simp at h'; omega
    | y :: z :: w :: v :: ys, _ => simp

example : parseEntry "1:2:3:4".toList true = .rejected := by decide +kernel

/-- Beyond `2^24` the expansion is wrong: bounds pass through single precision. The entry `"16777217:16777217"` asks for one
value and yields another. -/
theorem C42_large_false : ∃ a : Int, parseEntry (showInt a ++ ':' :: showInt a) true = .values [a - 1] := by
  refine ⟨16777217, ?_⟩
  decide +kernel

/-- `repeat(x,r)` expands to `r` copies of `x`. -/
theorem C42_repeat_partial (x : Int) (r : Nat) (hx : -2 ^ 24 ≤ x) (hx' : x ≤ 2 ^ 24) (hr : r ≤ 2 ^ 24) (inclusive : Bool) :
    parseEntry ("repeat(".toList ++ (showInt x ++ ',' :: (showInt r ++ [')']))) inclusive = .values (List.replicate r x) := by
  have hc : ∀ c : Char, c ≠ '-' → c.isDigit = false → ∀ z : Int, c ∉ showInt z := fun c h1 h2 z => showInt_not z c h1 h2
  have h0 : ("repeat(".toList ++ (showInt x ++ ',' :: (showInt r ++ [')']))) =
      "repeat".toList ++ '(' :: (showInt x ++ ',' :: (showInt r ++ [')'])) := rfl
  rw [h0]
  unfold parseEntry
  have hcol : ':' ∉ "repeat".toList ++ '(' :: (showInt x ++ ',' :: (showInt r ++ [')'])) := by
    simp only [List.mem_append, List.mem_cons, List.mem_nil_iff, not_or, or_false]
    exact ⟨by decide, by decide, hc _ (by decide) (by decide) _, by decide, hc _ (by decide) (by decide) _, by decide⟩
  rw [if_neg hcol, if_pos (by rfl), pySplit_append '(' _ _ (by decide),
    pySplit_noSep '(' (showInt x ++ ',' :: (showInt r ++ [')'])) (by
      simp only [List.mem_append, List.mem_cons, List.mem_nil_iff, not_or, or_false]
      exact ⟨hc _ (by decide) (by decide) _, by decide, hc _ (by decide) (by decide) _, by decide⟩)]
  have h1 : ([['r', 'e', 'p', 'e', 'a', 't'], showInt x ++ ',' :: (showInt r ++ [')'])] : List (List Char)).getLastD [] =
      (showInt x ++ ',' :: showInt r) ++ ')' :: [] := by simp
  have h2 : "repeat".toList = ['r', 'e', 'p', 'e', 'a', 't'] := rfl
  rw [h2, h1, pySplit_append ')' _ _ (by
      simp only [List.mem_append, List.mem_cons, not_or]
      exact ⟨hc _ (by decide) (by decide) _, by decide, hc _ (by decide) (by decide) _⟩)]
  simp only [List.headD_cons]
  rw [pySplit_append ',' _ _ (hc _ (by decide) (by decide) _), pySplit_noSep ',' _ (hc _ (by decide) (by decide) _)]
  simp only [stringToNumeric_showInt x hx hx', stringToNumeric_showInt (r : Int) (by omega) (by omega)]
  rw [if_neg (by omega)]
  simp

example : parseEntry "repeat(7,3)".toList true = .values [7, 7, 7] := by decide +kernel

/-- A list of entries expands to the concatenation of the expansions of its entries. -/
theorem C42_list_partial (inclusive : Bool) (es : List RawEntry) (xss : List (List Int))
    (h : List.Forall₂ (fun e xs => parseRaw inclusive e = .values xs) es xss) :
    parseList inclusive es = .values xss.flatten := by
  induction h with
  | nil => rfl
  | cons h1 _ ih => simp [parseList, h1, ih]

example : parseList true [.number 0, .text "2:4".toList] = .values [0, 2, 3, 4] := by decide +kernel

/-! ## C44 -/

/-- Writing a nonempty table as text and reading it back with its dimensions returns it. -/
theorem C44_text_roundtrip (rows : List (List Int)) (m n : Nat) (hm : 0 < m) (hn : 0 < n) (h : Rect rows m n) :
    strToTable (tableToStr rows) m n = some rows := by
  obtain ⟨h1, h2⟩ := h
  have hlen := length_flatten_rect rows n h2
  have hne : rows.flatten.map showInt ≠ [] := by
    intro hh
    have := congrArg List.length hh
    rw [List.length_map, hlen, h1] at this
    simp at this; omega
  unfold strToTable tableToStr
  rw [pySplit_join ',' _ hne (by
    intro p hp
    obtain ⟨z, _, rfl⟩ := List.mem_map.mp hp
    exact showInt_not z ',' (by decide) (by decide)), mapM_map_some showInt pyInt pyInt_showInt]
  simp only [hlen, h1, if_pos]
  exact divideChunks_flatten rows n hn h2

example : strToTable "1,2,-3,4,5,6".toList 2 3 = some [[1, 2, -3], [4, 5, 6]] := by decide +kernel

/-- Whatever text is read back has the requested shape, and its cells are the numbers of the text in order. -/
theorem C44_text_shape (s : List Char) (m n : Nat) (rows : List (List Int)) (h : strToTable s m n = some rows) :
    Rect rows m n ∧ (pySplit ',' s).mapM pyInt = some rows.flatten := by
  unfold strToTable at h
  cases hd : (pySplit ',' s).mapM pyInt with
  | none => simp [hd] at h
  | some data =>
    simp only [hd, Option.ite_none_right_eq_some] at h
    obtain ⟨hl, h⟩ := h
    have hn : 0 < n := by
      rcases Nat.eq_zero_or_pos n with h0 | h0
      · subst h0; simp [divideChunks] at h
      · exact h0
    obtain ⟨cs, h1, h2, h3, h4⟩ := divideChunks_spec n hn data.length data le_rfl
    rw [h1] at h
    simp only [Option.some.injEq] at h
    subst h
    -- every chunk has length n because n divides the total
    have hall : ∀ (cs : List (List Int)) (m : Nat), (∀ c ∈ cs, c ≠ [] ∧ c.length ≤ n) →
        (∀ k, k + 1 < cs.length → ∀ c, cs[k]? = some c → c.length = n) → cs.flatten.length = m * n →
        (∀ c ∈ cs, c.length = n) := by
      intro cs
      induction cs with
      | nil => intro m _ _ _ c hc; simp at hc
      | cons c cs ih =>
        intro m h3 h4 hl
        cases cs with
        | nil =>
          intro c' hc'
          simp only [List.mem_singleton] at hc'
          subst hc'
          simp only [List.flatten_cons, List.flatten_nil, List.append_nil] at hl
          obtain ⟨h5, h6⟩ := h3 c' (by simp)
          have h7 := List.length_pos_iff.mpr h5
          rcases m with _ | _ | m
          · simp at hl; exact absurd hl h5
          · simpa using hl
          · rw [hl] at h6
            have : n < (m + 1 + 1) * n := by nlinarith
            omega
        | cons c2 cs =>
          have hc : c.length = n := h4 0 (by simp) c (by simp)
          intro c' hc'
          rcases List.mem_cons.mp hc' with rfl | hc'
          · exact hc
          · refine ih (m - 1) (fun d hd => h3 d (List.mem_cons_of_mem _ hd)) (fun k hk d hd => h4 (k + 1) (by simpa using hk) d (by simpa using hd)) ?_ c' hc'
            rw [List.flatten_cons, List.length_append, hc] at hl
            rcases m with _ | m
            · omega
            · rw [Nat.succ_mul] at hl
              have h9 : (c2 :: cs).flatten.length = m * n := by omega
              simpa using h9
    have hall' := hall cs m h3 h4 (by rw [h2]; exact hl)
    refine ⟨⟨?_, hall'⟩, by rw [h2]⟩
    have := length_flatten_rect cs n hall'
    rw [h2, hl] at this
    exact (Nat.eq_of_mul_eq_mul_right hn this).symm

/-- Writing a nonempty table (with 32-bit entries) as a dictionary of cells and reading it back returns it, whether or not
the shape is given. -/
theorem C44_dict_roundtrip (rows : List (List Int)) (m n : Nat) (hm : 0 < m) (hn : 0 < n) (h : Rect rows m n)
    (hfit : ∀ r ∈ rows, ∀ v ∈ r, Fits32 v) :
    dictToArray (arrayToF rows) (some (m, n)) = some rows ∧ dictToArray (arrayToF rows) none = some rows := by
  obtain ⟨h1, h2⟩ := h
  have hget : ∀ i j, i < m → j < n → ∃ r v, rows[i]? = some r ∧ r[j]? = some v := by
    intro i j hi hj
    have hi' : i < rows.length := by omega
    have hr := h2 rows[i] (List.getElem_mem hi')
    exact ⟨rows[i], rows[i][j]'(by omega), by simp [hi'], by simp [hr, hj]⟩
  have hbound : ∀ i j v, ((i, j), v) ∈ arrayToF rows → i < m ∧ j < n := by
    intro i j v hv
    obtain ⟨r, hr, hv⟩ := (mem_arrayToF rows i j v).mp hv
    obtain ⟨hi, hr'⟩ := List.getElem?_eq_some_iff.mp hr
    obtain ⟨hj, _⟩ := List.getElem?_eq_some_iff.mp hv
    have := h2 r (by rw [← hr']; exact List.getElem_mem hi)
    omega
  have hne : arrayToF rows ≠ [] := by
    obtain ⟨r, v, hr, hv⟩ := hget 0 0 hm hn
    intro h0
    have := (mem_arrayToF rows 0 0 v).mpr ⟨r, hr, hv⟩
    rw [h0] at this; simp at this
  have hall : (arrayToF rows).all (fun kv => decide (kv.1.1 < m) && decide (kv.1.2 < n)) = true := by
    rw [List.all_eq_true]
    rintro ⟨⟨i, j⟩, v⟩ hv
    have := hbound i j v hv
    simp [this]
  -- keys are distinct
  have hfind : ∀ i j v, ((i, j), v) ∈ arrayToF rows →
      (arrayToF rows).reverse.find? (fun kv => decide (kv.1 = (i, j))) = some ((i, j), v) := by
    intro i j v hv
    cases hf : (arrayToF rows).reverse.find? (fun kv => decide (kv.1 = (i, j))) with
    | none =>
      rw [List.find?_eq_none] at hf
      exact absurd (by simp) (hf ((i, j), v) (by simpa using hv))
    | some kv =>
      have e1 := List.find?_some hf
      have e2 := List.mem_of_find?_eq_some hf
      simp only [decide_eq_true_eq] at e1
      simp only [List.mem_reverse] at e2
      obtain ⟨⟨i', j'⟩, v'⟩ := kv
      simp only [Prod.mk.injEq] at e1
      obtain ⟨rfl, rfl⟩ := e1
      obtain ⟨r, hr, hv1⟩ := (mem_arrayToF rows i' j' v).mp hv
      obtain ⟨r', hr', hv2⟩ := (mem_arrayToF rows i' j' v').mp e2
      rw [hr] at hr'
      simp only [Option.some.injEq] at hr'
      subst hr'
      rw [hv1] at hv2
      simp only [Option.some.injEq] at hv2
      rw [hv2]
  have hrows : ((List.range m).map fun i => (List.range n).map fun j => cellValue (arrayToF rows) i j) = rows := by
    apply List.ext_getElem
    · simp [h1]
    · intro i hi hi'
      simp only [List.length_map, List.length_range] at hi
      simp only [List.getElem_map, List.getElem_range]
      apply List.ext_getElem
      · simp [h2 rows[i] (List.getElem_mem hi')]
      · intro j hj hj'
        simp only [List.length_map, List.length_range] at hj
        simp only [List.getElem_map, List.getElem_range]
        have hm' : ((i, j), rows[i][j]) ∈ arrayToF rows := (mem_arrayToF rows i j _).mpr ⟨rows[i], by simp [hi'], by simp [hj']⟩
        rw [cellValue, hfind i j _ hm']
        exact toInt32_fits _ (hfit rows[i] (List.getElem_mem hi') _ (List.getElem_mem hj'))
  have hmax1 : ((arrayToF rows).map fun kv => kv.1.1).foldl max 0 + 1 = m := by
    apply le_antisymm
    · have : ((arrayToF rows).map fun kv => kv.1.1).foldl max 0 ≤ m - 1 := by
        apply foldl_max_le_of _ _ _ (by omega)
        intro x hx
        obtain ⟨⟨⟨i, j⟩, v⟩, hv, rfl⟩ := List.mem_map.mp hx
        have := hbound i j v hv
        show i ≤ m - 1
        omega
      omega
    · obtain ⟨r, v, hr, hv⟩ := hget (m - 1) 0 (by omega) hn
      have : m - 1 ≤ ((arrayToF rows).map fun kv => kv.1.1).foldl max 0 := by
        apply foldl_max_ge_of
        left
        exact List.mem_map.mpr ⟨_, (mem_arrayToF rows (m - 1) 0 v).mpr ⟨r, hr, hv⟩, rfl⟩
      omega
  have hmax2 : ((arrayToF rows).map fun kv => kv.1.2).foldl max 0 + 1 = n := by
    apply le_antisymm
    · have : ((arrayToF rows).map fun kv => kv.1.2).foldl max 0 ≤ n - 1 := by
        apply foldl_max_le_of _ _ _ (by omega)
        intro x hx
        obtain ⟨⟨⟨i, j⟩, v⟩, hv, rfl⟩ := List.mem_map.mp hx
        have := hbound i j v hv
        show j ≤ n - 1
        omega
      omega
    · obtain ⟨r, v, hr, hv⟩ := hget 0 (n - 1) hm (by omega)
      have : n - 1 ≤ ((arrayToF rows).map fun kv => kv.1.2).foldl max 0 := by
        apply foldl_max_ge_of
        left
        exact List.mem_map.mpr ⟨_, (mem_arrayToF rows 0 (n - 1) v).mpr ⟨r, hr, hv⟩, rfl⟩
      omega
  constructor
  · unfold dictToArray
    rw [if_neg hne]
    simp only [Option.getD_some, hall, if_true, hrows]
  · unfold dictToArray
    rw [if_neg hne]
    simp only [Option.getD_none, hmax1, hmax2, hall, if_true, hrows]

example : dictToArray (arrayToF [[1, 0, 3], [4, 5, 6]]) none = some [[1, 0, 3], [4, 5, 6]] := by decide +kernel

/-- A dictionary with distinct cells inside the shape becomes the array with its values at its cells and zero elsewhere. -/
theorem C44_sparse_dict (f : List ((Nat × Nat) × Int)) (m n : Nat) (hf : f ≠ []) (hnd : (f.map (·.1)).Nodup)
    (hin : ∀ kv ∈ f, kv.1.1 < m ∧ kv.1.2 < n) (hfit : ∀ kv ∈ f, Fits32 kv.2) :
    ∃ rows, dictToArray f (some (m, n)) = some rows ∧ Rect rows m n ∧
      ∀ i j, i < m → j < n → ∃ r, rows[i]? = some r ∧
        ((∀ v, ((i, j), v) ∈ f → r[j]? = some v) ∧ ((∀ v, ((i, j), v) ∉ f) → r[j]? = some 0)) := by
  have hall : f.all (fun kv => decide (kv.1.1 < m) && decide (kv.1.2 < n)) = true := by
    rw [List.all_eq_true]
    intro kv hkv
    have := hin kv hkv
    simp [this]
  refine ⟨_, by unfold dictToArray; rw [if_neg hf]; simp only [Option.getD_some, hall, if_true]; rfl, ⟨by simp, ?_⟩, ?_⟩
  · intro r hr
    obtain ⟨i, _, rfl⟩ := List.mem_map.mp hr
    simp
  · intro i j hi hj
    refine ⟨(List.range n).map fun j => cellValue f i j, by simp [hi], ?_, ?_⟩
    · intro v hv
      have h1 := (find_reverse f hnd (i, j)).1 v hv
      have h2 := toInt32_fits v (hfit _ hv)
      simp [hj, cellValue, h1, h2]
    · intro hv
      have h1 := (find_reverse f hnd (i, j)).2 hv
      simp [hj, cellValue, h1]

example : dictToArray [((0, 1), 7), ((1, 0), -2)] (some (2, 3)) = some [[0, 7, 0], [-2, 0, 0]] := by decide +kernel

/-- Writing a pair of integers as text and reading it back returns it. -/
theorem C44_pair_roundtrip (t : Int × Int) : strToTuple (tupleToStr t) = some t := by
  obtain ⟨a, b⟩ := t
  have hc : ∀ c : Char, c ≠ '-' → c.isDigit = false → ∀ z : Int, c ∉ showInt z := fun c h1 h2 z => showInt_not z c h1 h2
  have e1 : (pySplit '(' (tupleToStr (a, b)))[1]? = some (showInt a ++ ',' :: (showInt b ++ [')'])) := by
    have : tupleToStr (a, b) = [] ++ '(' :: (showInt a ++ ',' :: (showInt b ++ [')'])) := by simp [tupleToStr]
    rw [this, pySplit_append '(' _ _ (by simp), pySplit_noSep '(' (showInt a ++ ',' :: (showInt b ++ [')'])) (by
      simp only [List.mem_append, List.mem_cons, List.mem_nil_iff, not_or, or_false]
      exact ⟨hc _ (by decide) (by decide) _, by decide, hc _ (by decide) (by decide) _, by decide⟩)]
    simp
  have e2 : (pySplit ',' (tupleToStr (a, b)))[1]? = some (showInt b ++ ')' :: []) := by
    have : tupleToStr (a, b) = ('(' :: showInt a) ++ ',' :: (showInt b ++ [')']) := by simp [tupleToStr]
    rw [this, pySplit_append ',' _ _ (by
      simp only [List.mem_cons, not_or]
      exact ⟨by decide, hc _ (by decide) (by decide) _⟩), pySplit_noSep ',' (showInt b ++ [')']) (by
      simp only [List.mem_append, List.mem_cons, List.mem_nil_iff, not_or, or_false]
      exact ⟨hc _ (by decide) (by decide) _, by decide⟩)]
    simp
  unfold strToTuple
  rw [e1, e2]
  simp only [pySplit_append ',' _ _ (hc ',' (by decide) (by decide) a), pySplit_append ')' _ _ (hc ')' (by decide) (by decide) b),
    List.headD_cons, pyInt_showInt]

example : tupleToStr (3, -14) = "(3,-14)".toList := by decide +kernel

/-! ## C45 -/

/-- Chunking a list with a positive size: the chunks concatenate to the list, none is empty or too long, and only the last
may be shorter than the size. -/
theorem C45_chunks {α : Type} (l : List α) (n : Nat) (hn : 0 < n) :
    ∃ cs, divideChunks l n = some cs ∧ cs.flatten = l ∧ (∀ c ∈ cs, c ≠ [] ∧ c.length ≤ n) ∧
      (∀ k, k + 1 < cs.length → ∀ c, cs[k]? = some c → c.length = n) :=
  divideChunks_spec n hn l.length l le_rfl

example : divideChunks [1, 2, 3, 4, 5] 2 = some [[1, 2], [3, 4], [5]] := by decide

/-- A concurrent sweep submits every configuration exactly once and in order, whatever the chunk size. -/
theorem C45_each_once {α : Type} (configs : List α) (n : Nat) (hn : 0 < n) :
    ∃ jobs, concurrentJobs configs n = some jobs ∧ jobs.map (fun j => j.2.2) = configs := by
  obtain ⟨cs, h1, h2, _⟩ := C45_chunks configs n hn
  refine ⟨_, by simp only [concurrentJobs, h1, Option.map_some]; rfl, ?_⟩
  rw [List.map_flatten, List.map_map]
  have : ∀ (cs : List (List α)) (k : Nat),
      ((cs.zipIdx k).map ((List.map fun j : Nat × Nat × α => j.2.2) ∘ fun c => c.1.zipIdx.map fun x => (c.2, x.2, x.1))) = cs := by
    intro cs
    induction cs with
    | nil => intro k; rfl
    | cons c cs ih =>
      intro k
      simp only [List.zipIdx_cons, List.map_cons, ih, Function.comp_apply, List.map_map]
      congr 1
      have : ((fun j : Nat × Nat × α => j.2.2) ∘ fun x : α × Nat => (k, x.2, x.1)) = Prod.fst := rfl
      rw [this, List.zipIdx_map_fst]
  rw [this, h2]

example : concurrentJobs ["a", "b", "c"] 2 = some [(0, 0, "a"), (0, 1, "b"), (1, 0, "c")] := by decide

end GeNSIT
