import Verif.Sweep.Props
import Verif.Plot.Model
import Mathlib.Data.Nat.Log
import Mathlib.Data.Fintype.Pigeonhole
import Mathlib.Tactic.Linarith
import Mathlib.Tactic.NormNum
import Mathlib.Tactic.FieldSimp
import Mathlib.Data.Rat.Floor

/-!
# Property theorem C190 (values written as text)

`stringify` (`/repo/gensit/utils/misc_utils.py:680-705`) writes a value as text: the components of a sweep id (`config.py:505`, with brackets and without scientific notation), and the labels and
positions of discrete axes and of groups (`plot.py:306-309,372-392,415-418`, without brackets).
-/

namespace GeNSIT

open Spec

/-! ### Model -/

/-- A value given to `stringify`; dictionaries and decimal numbers are left out. -/
inductive TextVal where
  | none
  | bool (b : Bool)
  | num (q : ℚ)
  | nan
  | inf (negative : Bool)
  | text (s : List Char)
  | list (xs : List TextVal)

/-- Rounding half to even. -/
def roundEven (q : ℚ) : ℕ :=
  let n := ⌊q⌋.toNat
  if q - n < 1 / 2 then n else if 1 / 2 < q - n then n + 1 else if n % 2 = 0 then n else n + 1

/-- `"{:.0e}".format(q)` of a number above 100: one digit and the exponent. -/
def oneDigit (q : ℚ) : ℕ × ℕ :=
  let e := Nat.log 10 ⌊q⌋.toNat
  let m := roundEven (q / 10 ^ e)
  if m = 10 then (1, e + 1) else (m, e)

/-- The text of it: `1e+02`; the exponent has at least two digits. -/
def sciText (d : ℕ × ℕ) : List Char :=
  Nat.toDigits 10 d.1 ++ 'e' :: '+' :: (if d.2 < 10 then '0' :: Nat.toDigits 10 d.2 else Nat.toDigits 10 d.2)

mutual
/-- `stringify` (`misc_utils.py:680-705`); `repr` is `str` of a number, `pre` and `suf` are `preffix` and `suffix`, `sci` is `scientific`. -/
def stringify (repr : ℚ → List Char) (pre suf : List Char) (sci : Bool) : TextVal → List Char
  | .none => "none".toList
  | .bool b => if b then "True".toList else "False".toList
  | .num q => if sci = true ∧ 100 < q then sciText (oneDigit q) else repr q
  | .nan => "nan".toList
  | .inf negative => if sci then "nan".toList else if negative then "-inf".toList else "inf".toList
  | .text s => if s = [] then "none".toList else s
  | .list [] => "none".toList
  | .list (x :: xs) => pre ++ (stringify repr pre suf sci x ++ stringifyRest repr pre suf sci xs) ++ suf
/-- The further entries of a list, each after a comma. -/
def stringifyRest (repr : ℚ → List Char) (pre suf : List Char) (sci : Bool) : List TextVal → List Char
  | [] => []
  | x :: xs => ',' :: (stringify repr pre suf sci x ++ stringifyRest repr pre suf sci xs)
end

/-! ### Specification -/

/-- A character with a meaning of its own. -/
def Spec.Separator (c : Char) : Prop := c = ',' ∨ c = '[' ∨ c = ']'

/-- What is true of the text of Python's numbers. -/
structure Spec.GoodRepr (repr : ℚ → List Char) : Prop where
  inj : ∀ p q, repr p = repr q → p = q
  nonempty : ∀ q, repr q ≠ []
  plain : ∀ q, ∀ c ∈ repr q, ¬ Spec.Separator c
  other : ∀ q, repr q ∉ ["none".toList, "True".toList, "False".toList, "nan".toList, "-inf".toList, "inf".toList]

/-- A text that is not the text of something else and has no separators. -/
structure Spec.PlainText (repr : ℚ → List Char) (s : List Char) : Prop where
  nonempty : s ≠ []
  plain : ∀ c ∈ s, ¬ Spec.Separator c
  other : s ∉ ["none".toList, "True".toList, "False".toList, "nan".toList, "-inf".toList, "inf".toList]
  number : ∀ q, s ≠ repr q

mutual
/-- A value with such texts only, and without empty lists. -/
def Spec.PlainValue (repr : ℚ → List Char) : TextVal → Prop
  | .text s => Spec.PlainText repr s
  | .list [] => False
  | .list (x :: xs) => Spec.PlainValue repr x ∧ Spec.PlainValues repr xs
  | _ => True
/-- All of them. -/
def Spec.PlainValues (repr : ℚ → List Char) : List TextVal → Prop
  | [] => True
  | x :: xs => Spec.PlainValue repr x ∧ Spec.PlainValues repr xs
end

/-- Not a list. -/
def TextVal.isAtom : TextVal → Bool
  | .list _ => false
  | _ => true

/-! ### Lemmas -/

/-- What may follow an entry. -/
def EndsEntry (r : List Char) : Prop := r = [] ∨ ∃ c r', r = c :: r' ∧ (c = ',' ∨ c = ']')

theorem atoms_split {x y r r' : List Char} (hx : ∀ c ∈ x, ¬ Spec.Separator c) (hy : ∀ c ∈ y, ¬ Spec.Separator c) (hr : EndsEntry r) (hr' : EndsEntry r') (h : x ++ r = y ++ r') :
    x = y ∧ r = r' := by
  induction x generalizing y with
  | nil =>
    cases y with
    | nil => exact ⟨rfl, h⟩
    | cons c y =>
      exfalso
      rcases hr with rfl | ⟨d, t, rfl, hd⟩
      · simp at h
      · simp only [List.nil_append, List.cons_append, List.cons.injEq] at h
        have := hy c (by simp)
        rw [← h.1] at this
        rcases hd with rfl | rfl
        · exact this (Or.inl rfl)
        · exact this (Or.inr (Or.inr rfl))
  | cons c x ih =>
    cases y with
    | nil =>
      exfalso
      rcases hr' with rfl | ⟨d, t, rfl, hd⟩
      · simp at h
      · simp only [List.nil_append, List.cons_append, List.cons.injEq] at h
        have := hx c (by simp)
        rw [h.1] at this
        rcases hd with rfl | rfl
        · exact this (Or.inl rfl)
        · exact this (Or.inr (Or.inr rfl))
    | cons d y =>
      simp only [List.cons_append, List.cons.injEq] at h
      obtain ⟨h1, h2⟩ := ih (fun c hc => hx c (by simp [hc])) (fun c hc => hy c (by simp [hc])) h.2
      exact ⟨by rw [h.1, h1], h2⟩

/-- The text of something that is not a list. -/
theorem atom_plain {repr : ℚ → List Char} (hg : Spec.GoodRepr repr) (pre suf : List Char) {a : TextVal} (ha : a.isAtom = true) (hp : Spec.PlainValue repr a) :
    stringify repr pre suf false a ≠ [] ∧ ∀ c ∈ stringify repr pre suf false a, ¬ Spec.Separator c := by
  cases a with
  | none => simp [stringify, Spec.Separator]
  | bool b => cases b <;> simp [stringify, Spec.Separator]
  | num q => simpa [stringify] using ⟨hg.nonempty q, hg.plain q⟩
  | nan => simp [stringify, Spec.Separator]
  | inf b => cases b <;> simp [stringify, Spec.Separator]
  | text s =>
    have h : Spec.PlainText repr s := by simpa [Spec.PlainValue] using hp
    simpa [stringify, h.nonempty] using h.plain
  | list xs => simp [TextVal.isAtom] at ha

theorem atom_inj {repr : ℚ → List Char} (hg : Spec.GoodRepr repr) (pre suf : List Char) {a b : TextVal} (ha : a.isAtom = true) (hb : b.isAtom = true) (hpa : Spec.PlainValue repr a)
    (hpb : Spec.PlainValue repr b) (h : stringify repr pre suf false a = stringify repr pre suf false b) : a = b := by
  have hnum : ∀ q t, t ∈ ["none".toList, "True".toList, "False".toList, "nan".toList, "-inf".toList, "inf".toList] → repr q ≠ t := fun q t ht e => hg.other q (e ▸ ht)
  have htext : ∀ s t, Spec.PlainText repr s → t ∈ ["none".toList, "True".toList, "False".toList, "nan".toList, "-inf".toList, "inf".toList] → s ≠ t := fun s t hs ht e => hs.other (e ▸ ht)
  have hstr : ∀ s, Spec.PlainText repr s → stringify repr pre suf false (.text s) = s := fun s hs => by simp [stringify, hs.nonempty]
  cases a with
  | none =>
    cases b with
    | none => rfl
    | bool b => cases b <;> simp [stringify] at h
    | num q => exact absurd h.symm (by simpa [stringify] using hnum q _ (by simp))
    | nan => simp [stringify] at h
    | inf b => cases b <;> simp [stringify] at h
    | text s =>
      have hs : Spec.PlainText repr s := by simpa [Spec.PlainValue] using hpb
      rw [hstr s hs] at h
      exact absurd h.symm (htext s _ hs (by simp [stringify]))
    | list xs => simp [TextVal.isAtom] at hb
  | bool x =>
    cases b with
    | none => cases x <;> simp [stringify] at h
    | bool b => cases b <;> cases x <;> simp_all [stringify]
    | num q => exact absurd h.symm (by cases x <;> simpa [stringify] using hnum q _ (by simp))
    | nan => cases x <;> simp [stringify] at h
    | inf b => cases b <;> cases x <;> simp [stringify] at h
    | text s =>
      have hs : Spec.PlainText repr s := by simpa [Spec.PlainValue] using hpb
      rw [hstr s hs] at h
      exact absurd h.symm (htext s _ hs (by cases x <;> simp [stringify]))
    | list xs => simp [TextVal.isAtom] at hb
  | num q =>
    cases b with
    | none => exact absurd h (by simpa [stringify] using hnum q _ (by simp))
    | bool b => exact absurd h (by cases b <;> simpa [stringify] using hnum q _ (by simp))
    | num p => simp only [stringify, Bool.false_eq_true, false_and, if_false] at h; rw [hg.inj _ _ h]
    | nan => exact absurd h (by simpa [stringify] using hnum q _ (by simp))
    | inf b => exact absurd h (by cases b <;> simpa [stringify] using hnum q _ (by simp))
    | text s =>
      have hs : Spec.PlainText repr s := by simpa [Spec.PlainValue] using hpb
      rw [hstr s hs] at h
      simp only [stringify, Bool.false_eq_true, false_and, if_false] at h
      exact absurd h.symm (hs.number q)
    | list xs => simp [TextVal.isAtom] at hb
  | nan =>
    cases b with
    | none => simp [stringify] at h
    | bool b => cases b <;> simp [stringify] at h
    | num q => exact absurd h.symm (by simpa [stringify] using hnum q _ (by simp))
    | nan => rfl
    | inf b => cases b <;> simp [stringify] at h
    | text s =>
      have hs : Spec.PlainText repr s := by simpa [Spec.PlainValue] using hpb
      rw [hstr s hs] at h
      exact absurd h.symm (htext s _ hs (by simp [stringify]))
    | list xs => simp [TextVal.isAtom] at hb
  | inf x =>
    cases b with
    | none => cases x <;> simp [stringify] at h
    | bool b => cases b <;> cases x <;> simp [stringify] at h
    | num q => exact absurd h.symm (by cases x <;> simpa [stringify] using hnum q _ (by simp))
    | nan => cases x <;> simp [stringify] at h
    | inf b => cases b <;> cases x <;> simp_all [stringify]
    | text s =>
      have hs : Spec.PlainText repr s := by simpa [Spec.PlainValue] using hpb
      rw [hstr s hs] at h
      exact absurd h.symm (htext s _ hs (by cases x <;> simp [stringify]))
    | list xs => simp [TextVal.isAtom] at hb
  | text s =>
    have hs : Spec.PlainText repr s := by simpa [Spec.PlainValue] using hpa
    rw [hstr s hs] at h
    cases b with
    | none => exact absurd h (htext s _ hs (by simp [stringify]))
    | bool b => exact absurd h (htext s _ hs (by cases b <;> simp [stringify]))
    | num q =>
      simp only [stringify, Bool.false_eq_true, false_and, if_false] at h
      exact absurd h (hs.number q)
    | nan => exact absurd h (htext s _ hs (by simp [stringify]))
    | inf b => exact absurd h (htext s _ hs (by cases b <;> simp [stringify]))
    | text t =>
      have ht : Spec.PlainText repr t := by simpa [Spec.PlainValue] using hpb
      rw [hstr t ht] at h
      rw [h]
    | list xs => simp [TextVal.isAtom] at hb
  | list xs => simp [TextVal.isAtom] at ha

theorem stringifyRest_ends (repr : ℚ → List Char) (pre suf : List Char) (sci : Bool) (xs : List TextVal) (r : List Char) (hr : EndsEntry r) :
    EndsEntry (stringifyRest repr pre suf sci xs ++ r) := by
  cases xs with
  | nil => simpa [stringifyRest] using hr
  | cons x xs => exact Or.inr ⟨',', stringify repr pre suf sci x ++ (stringifyRest repr pre suf sci xs ++ r), by simp [stringifyRest], Or.inl rfl⟩

theorem atoms_end {repr : ℚ → List Char} (hg : Spec.GoodRepr repr) {a b : TextVal} {r r' : List Char} (ha : a.isAtom = true) (hpa : Spec.PlainValue repr a) (hpb : Spec.PlainValue repr b)
    (hr : EndsEntry r) (hr' : EndsEntry r') (h : stringify repr ['['] [']'] false a ++ r = stringify repr ['['] [']'] false b ++ r') : a = b ∧ r = r' := by
  have h1 := atom_plain hg ['['] [']'] ha hpa
  by_cases hb : b.isAtom = true
  · have h2 := atom_plain hg ['['] [']'] hb hpb
    obtain ⟨h3, h4⟩ := atoms_split h1.2 h2.2 hr hr' h
    exact ⟨atom_inj hg _ _ ha hb hpa hpb h3, h4⟩
  · exfalso
    cases b with
    | list ys =>
      cases ys with
      | nil => simp [Spec.PlainValue] at hpb
      | cons y ys =>
        obtain ⟨c, t, hc⟩ := List.exists_cons_of_ne_nil h1.1
        rw [hc] at h
        simp only [stringify, List.cons_append, List.nil_append, List.cons.injEq] at h
        exact h1.2 c (by rw [hc]; simp) (Or.inr (Or.inl h.1))
    | _ => simp [TextVal.isAtom] at hb

mutual
theorem stringify_inj {repr : ℚ → List Char} (hg : Spec.GoodRepr repr) : ∀ (a b : TextVal) (r r' : List Char), Spec.PlainValue repr a → Spec.PlainValue repr b → EndsEntry r → EndsEntry r' →
    stringify repr ['['] [']'] false a ++ r = stringify repr ['['] [']'] false b ++ r' → a = b ∧ r = r'
  | .list [], _, _, _, hpa, _, _, _, _ => by simp [Spec.PlainValue] at hpa
  | .list (x :: xs), b, r, r', hpa, hpb, hr, hr', h => by
    match b, hpb, h with
    | .list [], hpb, h => simp [Spec.PlainValue] at hpb
    | .list (y :: ys), hpb, h =>
      simp only [Spec.PlainValue] at hpa hpb
      simp only [stringify, List.cons_append, List.append_assoc, List.cons.injEq, true_and, List.nil_append] at h
      have e : ∀ t : List Char, EndsEntry (']' :: t) := fun t => Or.inr ⟨']', t, rfl, Or.inr rfl⟩
      obtain ⟨h1, h2⟩ := stringify_inj hg x y _ _ hpa.1 hpb.1 (stringifyRest_ends _ _ _ _ xs _ (e r)) (stringifyRest_ends _ _ _ _ ys _ (e r')) h
      obtain ⟨h3, h4⟩ := stringifyRest_inj hg xs ys r r' hpa.2 hpb.2 h2
      exact ⟨by rw [h1, h3], h4⟩
    | .none, hpb, h => exact (atoms_end hg (a := .none) rfl hpb hpa hr' hr h.symm).imp Eq.symm Eq.symm
    | .bool c, hpb, h => exact (atoms_end hg (a := .bool c) rfl hpb hpa hr' hr h.symm).imp Eq.symm Eq.symm
    | .num q, hpb, h => exact (atoms_end hg (a := .num q) rfl hpb hpa hr' hr h.symm).imp Eq.symm Eq.symm
    | .nan, hpb, h => exact (atoms_end hg (a := .nan) rfl hpb hpa hr' hr h.symm).imp Eq.symm Eq.symm
    | .inf c, hpb, h => exact (atoms_end hg (a := .inf c) rfl hpb hpa hr' hr h.symm).imp Eq.symm Eq.symm
    | .text s, hpb, h => exact (atoms_end hg (a := .text s) rfl hpb hpa hr' hr h.symm).imp Eq.symm Eq.symm
  | .none, b, r, r', hpa, hpb, hr, hr', h => atoms_end hg rfl hpa hpb hr hr' h
  | .bool _, b, r, r', hpa, hpb, hr, hr', h => atoms_end hg rfl hpa hpb hr hr' h
  | .num _, b, r, r', hpa, hpb, hr, hr', h => atoms_end hg rfl hpa hpb hr hr' h
  | .nan, b, r, r', hpa, hpb, hr, hr', h => atoms_end hg rfl hpa hpb hr hr' h
  | .inf _, b, r, r', hpa, hpb, hr, hr', h => atoms_end hg rfl hpa hpb hr hr' h
  | .text _, b, r, r', hpa, hpb, hr, hr', h => atoms_end hg rfl hpa hpb hr hr' h
theorem stringifyRest_inj {repr : ℚ → List Char} (hg : Spec.GoodRepr repr) : ∀ (xs ys : List TextVal) (r r' : List Char), Spec.PlainValues repr xs → Spec.PlainValues repr ys →
    stringifyRest repr ['['] [']'] false xs ++ ']' :: r = stringifyRest repr ['['] [']'] false ys ++ ']' :: r' → xs = ys ∧ r = r'
  | [], [], r, r', _, _, h => by simpa [stringifyRest] using h
  | [], y :: ys, r, r', _, _, h => by simp [stringifyRest] at h
  | x :: xs, [], r, r', _, _, h => by simp [stringifyRest] at h
  | x :: xs, y :: ys, r, r', hpa, hpb, h => by
    simp only [Spec.PlainValues] at hpa hpb
    simp only [stringifyRest, List.cons_append, List.append_assoc, List.cons.injEq, true_and] at h
    have e : ∀ t : List Char, EndsEntry (']' :: t) := fun t => Or.inr ⟨']', t, rfl, Or.inr rfl⟩
    obtain ⟨h1, h2⟩ := stringify_inj hg x y _ _ hpa.1 hpb.1 (stringifyRest_ends _ _ _ _ xs _ (e r)) (stringifyRest_ends _ _ _ _ ys _ (e r')) h
    obtain ⟨h3, h4⟩ := stringifyRest_inj hg xs ys r r' hpa.2 hpb.2 h2
    exact ⟨by rw [h1, h3], h4⟩
end

/-! ### Theorems -/

/-- **C190 (ids).**  With brackets and without scientific notation different values have different texts, however lists are nested. -/
theorem C190_ids (repr : ℚ → List Char) (hg : Spec.GoodRepr repr) (a b : TextVal) (ha : Spec.PlainValue repr a) (hb : Spec.PlainValue repr b)
    (h : stringify repr ['['] [']'] false a = stringify repr ['['] [']'] false b) : a = b :=
  (stringify_inj hg a b [] [] ha hb (Or.inl rfl) (Or.inl rfl) (by rw [h])).1

/-- **C190 (sweep ids).**  Hence two configurations of a sweep that differ in a target parameter have different ids (with C37). -/
theorem C190_sweep_ids (repr : ℚ → List Char) (hg : Spec.GoodRepr repr) (x y : List Char → TextVal) (targets : List (List Char)) (hseg : (targets.map segment).Nodup)
    (hslash : ∀ v ∈ targets, '/' ∉ v ∧ '/' ∉ stringify repr ['['] [']'] false (x v) ∧ '/' ∉ stringify repr ['['] [']'] false (y v))
    (v : List Char) (hv : v ∈ targets) (hd : v ≠ "dataset".toList) (hs : "sigma".toList ∉ targets) (hx : Spec.PlainValue repr (x v)) (hy : Spec.PlainValue repr (y v)) (hne : x v ≠ y v) :
    sweepId (fun s => match s with | .other t => t | _ => []) targets (fun w => .other (stringify repr ['['] [']'] false (x w))) ≠
      sweepId (fun s => match s with | .other t => t | _ => []) targets (fun w => .other (stringify repr ['['] [']'] false (y w))) := by
  have hns : ∀ w ∈ targets, w ≠ "sigma".toList := fun w hw e => hs (e ▸ hw)
  refine C37_distinct_ids_partial _ _ _ targets hseg (fun w hw => ?_) v hv hd (hns v hv) fun h => hne (C190_ids repr hg _ _ hx hy h)
  unfold idComponent
  rw [if_neg (hns w hw)]
  obtain ⟨h1, h2, h3⟩ := hslash w hw
  constructor
  · simp only [List.mem_append, List.mem_cons, not_or]
    exact ⟨h1, by decide, h2⟩
  · rw [if_neg (hns w hw)]
    simp only [List.mem_append, List.mem_cons, not_or]
    exact ⟨h1, by decide, h3⟩

theorem labels_inj {repr : ℚ → List Char} (hg : Spec.GoodRepr repr) : ∀ (xs ys : List TextVal), (∀ x ∈ xs, x.isAtom = true ∧ Spec.PlainValue repr x) →
    (∀ y ∈ ys, y.isAtom = true ∧ Spec.PlainValue repr y) → stringifyRest repr [] [] false xs = stringifyRest repr [] [] false ys → xs = ys
  | [], [], _, _, _ => rfl
  | [], y :: ys, _, _, h => by simp [stringifyRest] at h
  | x :: xs, [], _, _, h => by simp [stringifyRest] at h
  | x :: xs, y :: ys, hx, hy, h => by
    simp only [stringifyRest, List.cons.injEq, true_and] at h
    have e : ∀ zs : List TextVal, EndsEntry (stringifyRest repr [] [] false zs) := fun zs => by simpa using stringifyRest_ends repr [] [] false zs [] (Or.inl rfl)
    have hx1 := hx x (by simp)
    have hy1 := hy y (by simp)
    obtain ⟨h1, h2⟩ := atoms_split (atom_plain hg [] [] hx1.1 hx1.2).2 (atom_plain hg [] [] hy1.1 hy1.2).2 (e xs) (e ys) h
    rw [atom_inj hg [] [] hx1.1 hy1.1 hx1.2 hy1.2 h1, labels_inj hg xs ys (fun z hz => hx z (by simp [hz])) (fun z hz => hy z (by simp [hz])) h2]

/-- **C190 (labels).**  Without brackets and without scientific notation this holds of lists of plain entries. -/
theorem C190_labels (repr : ℚ → List Char) (hg : Spec.GoodRepr repr) (xs ys : List TextVal) (hx0 : xs ≠ []) (hy0 : ys ≠ [])
    (hx : ∀ x ∈ xs, x.isAtom = true ∧ Spec.PlainValue repr x) (hy : ∀ y ∈ ys, y.isAtom = true ∧ Spec.PlainValue repr y)
    (h : stringify repr [] [] false (.list xs) = stringify repr [] [] false (.list ys)) : xs = ys := by
  refine labels_inj hg xs ys hx hy ?_
  match xs, ys, h, hx0, hy0 with
  | x :: xs, y :: ys, h, _, _ =>
    simp only [stringify, List.nil_append, List.append_nil] at h
    simp only [stringifyRest, h]

/-! #### Scientific notation -/

theorem roundEven_close {q : ℚ} (hq : 0 ≤ q) : 2 * |(roundEven q : ℚ) - q| ≤ 1 ∧ roundEven q ≤ ⌊q⌋.toNat + 1 ∧ ⌊q⌋.toNat ≤ roundEven q := by
  have hf : (0 : ℤ) ≤ ⌊q⌋ := Int.floor_nonneg.2 hq
  have hn : ((⌊q⌋.toNat : ℕ) : ℚ) = (⌊q⌋ : ℚ) := by
    exact_mod_cast congrArg (Int.cast : ℤ → ℚ) (Int.toNat_of_nonneg hf)
  have h1 := Int.floor_le q
  have h2 := Int.lt_floor_add_one q
  rw [← hn] at h1 h2
  unfold roundEven
  simp only
  by_cases c1 : q - (⌊q⌋.toNat : ℚ) < 1 / 2
  · rw [if_pos c1]
    refine ⟨?_, by omega, by omega⟩
    rw [abs_of_nonpos (by linarith)]
    linarith
  · rw [if_neg c1]
    by_cases c2 : 1 / 2 < q - (⌊q⌋.toNat : ℚ)
    · rw [if_pos c2]
      refine ⟨?_, by omega, by omega⟩
      push_cast
      rw [abs_of_nonneg (by linarith)]
      linarith
    · rw [if_neg c2]
      have c3 : q - (⌊q⌋.toNat : ℚ) = 1 / 2 := le_antisymm (not_lt.1 c2) (not_lt.1 c1)
      by_cases c4 : ⌊q⌋.toNat % 2 = 0
      · rw [if_pos c4]
        refine ⟨?_, by omega, by omega⟩
        rw [abs_of_nonpos (by linarith)]
        linarith
      · rw [if_neg c4]
        refine ⟨?_, by omega, by omega⟩
        push_cast
        rw [abs_of_nonneg (by linarith)]
        linarith

/-- The decade of a number above 100. -/
theorem decade_of {q : ℚ} (hq : 100 < q) : (10 : ℚ) ^ (Nat.log 10 ⌊q⌋.toNat) ≤ q ∧ q < 10 ^ (Nat.log 10 ⌊q⌋.toNat + 1) := by
  have hf : (100 : ℤ) ≤ ⌊q⌋ := Int.le_floor.2 (by push_cast; linarith)
  have hn : ((⌊q⌋.toNat : ℕ) : ℚ) = (⌊q⌋ : ℚ) := by
    exact_mod_cast congrArg (Int.cast : ℤ → ℚ) (Int.toNat_of_nonneg (by omega))
  have h1 := Int.floor_le q
  have h2 := Int.lt_floor_add_one q
  rw [← hn] at h1 h2
  have hne : ⌊q⌋.toNat ≠ 0 := by omega
  have h3 := Nat.pow_log_le_self 10 hne
  have h4 := Nat.lt_pow_succ_log_self (b := 10) (by decide) ⌊q⌋.toNat
  constructor
  · have : ((10 ^ Nat.log 10 ⌊q⌋.toNat : ℕ) : ℚ) ≤ (⌊q⌋.toNat : ℚ) := by exact_mod_cast h3
    push_cast at this
    linarith
  · have : ((⌊q⌋.toNat + 1 : ℕ) : ℚ) ≤ ((10 ^ (Nat.log 10 ⌊q⌋.toNat + 1) : ℕ) : ℚ) := by exact_mod_cast h4
    push_cast at this
    linarith

theorem scaled_bounds {q : ℚ} (hq : 100 < q) : 1 ≤ q / 10 ^ (Nat.log 10 ⌊q⌋.toNat) ∧ q / 10 ^ (Nat.log 10 ⌊q⌋.toNat) < 10 := by
  obtain ⟨h1, h2⟩ := decade_of hq
  have hp : (0 : ℚ) < 10 ^ (Nat.log 10 ⌊q⌋.toNat) := by positivity
  refine ⟨by rw [le_div_iff₀ hp]; linarith, ?_⟩
  rw [div_lt_iff₀ hp]
  rw [pow_succ] at h2
  linarith

/-- **C190 (scientific notation).**  The label of a number above 100 is the multiple `m · 10^e`, `1 ≤ m ≤ 9`, next to it. -/
theorem C190_scientific (q : ℚ) (hq : 100 < q) : 1 ≤ (oneDigit q).1 ∧ (oneDigit q).1 ≤ 9 ∧
    2 * |((oneDigit q).1 : ℚ) * 10 ^ (oneDigit q).2 - q| ≤ 10 ^ (Nat.log 10 ⌊q⌋.toNat) := by
  obtain ⟨h1, h2⟩ := scaled_bounds hq
  have hp : (0 : ℚ) < 10 ^ (Nat.log 10 ⌊q⌋.toNat) := by positivity
  obtain ⟨h3, h4, h5⟩ := roundEven_close (q := q / 10 ^ (Nat.log 10 ⌊q⌋.toNat)) (by linarith)
  have h6 : 1 ≤ ⌊q / 10 ^ (Nat.log 10 ⌊q⌋.toNat)⌋ := Int.le_floor.2 (by push_cast; linarith)
  have h7 : ⌊q / 10 ^ (Nat.log 10 ⌊q⌋.toNat)⌋ < 10 := Int.floor_lt.2 (by push_cast; linarith)
  have key : 2 * |(roundEven (q / 10 ^ (Nat.log 10 ⌊q⌋.toNat)) : ℚ) * 10 ^ (Nat.log 10 ⌊q⌋.toNat) - q| ≤ 10 ^ (Nat.log 10 ⌊q⌋.toNat) := by
    have e : (roundEven (q / 10 ^ (Nat.log 10 ⌊q⌋.toNat)) : ℚ) * 10 ^ (Nat.log 10 ⌊q⌋.toNat) - q =
        ((roundEven (q / 10 ^ (Nat.log 10 ⌊q⌋.toNat)) : ℚ) - q / 10 ^ (Nat.log 10 ⌊q⌋.toNat)) * 10 ^ (Nat.log 10 ⌊q⌋.toNat) := by
      field_simp
    rw [e, abs_mul, abs_of_pos hp]
    nlinarith
  unfold oneDigit
  simp only
  by_cases hm : roundEven (q / 10 ^ (Nat.log 10 ⌊q⌋.toNat)) = 10
  · rw [if_pos hm]
    refine ⟨le_refl _, by norm_num, ?_⟩
    rw [hm] at key
    push_cast at key ⊢
    rw [pow_succ, one_mul, mul_comm ((10 : ℚ) ^ _)]
    exact key
  · rw [if_neg hm]
    exact ⟨by omega, by omega, key⟩

/-- **C190 (scientific notation, exact behaviour).**  Among any eleven numbers of one decade above 100 two share a label. -/
theorem C190_scientific_shared (e : ℕ) (f : Fin 11 → ℚ) (hlow : ∀ i, 100 < f i) (hdec : ∀ i, Nat.log 10 ⌊f i⌋.toNat = e) :
    ∃ i j, i ≠ j ∧ ∀ repr pre suf, stringify repr pre suf true (.num (f i)) = stringify repr pre suf true (.num (f j)) := by
  have hb : ∀ i, roundEven (f i / 10 ^ e) - 1 < 10 := by
    intro i
    obtain ⟨h1, h2⟩ := scaled_bounds (hlow i)
    rw [hdec i] at h1 h2
    obtain ⟨-, h4, -⟩ := roundEven_close (q := f i / 10 ^ e) (by linarith)
    have h7 : ⌊f i / 10 ^ e⌋ < 10 := Int.floor_lt.2 (by push_cast; linarith)
    omega
  have hpos : ∀ i, 1 ≤ roundEven (f i / 10 ^ e) := by
    intro i
    obtain ⟨h1, -⟩ := scaled_bounds (hlow i)
    rw [hdec i] at h1
    obtain ⟨-, -, h5⟩ := roundEven_close (q := f i / 10 ^ e) (by linarith)
    have h6 : 1 ≤ ⌊f i / 10 ^ e⌋ := Int.le_floor.2 (by push_cast; linarith)
    omega
  obtain ⟨i, j, hij, h⟩ := Fintype.exists_ne_map_eq_of_card_lt (fun i : Fin 11 => (⟨roundEven (f i / 10 ^ e) - 1, hb i⟩ : Fin 10)) (by simp)
  refine ⟨i, j, hij, fun repr pre suf => ?_⟩
  have h' : roundEven (f i / 10 ^ e) = roundEven (f j / 10 ^ e) := by
    have := congrArg Fin.val h
    simp only at this
    have := hpos i
    have := hpos j
    omega
  have ho : oneDigit (f i) = oneDigit (f j) := by
    unfold oneDigit
    simp only [hdec i, hdec j, h']
  simp only [stringify, hlow i, hlow j, and_self, if_true, ho]

/-- **C190 does not hold of scientific notation**: 120 and 140 have the same label `1e+02`, are one tick and are drawn at one position. -/
theorem C190_scientific_false (repr : ℚ → List Char) : stringify repr [] [] true (.num 120) = "1e+02".toList ∧ stringify repr [] [] true (.num 140) = "1e+02".toList ∧
    (discreteTicks ([120, 140].map fun q => String.ofList (stringify repr [] [] true (.num q))) none none).map (fun d => d.major.unique) = some ["1e+02"] := by
  have hl : ∀ n : ℕ, 100 ≤ n → n < 1000 → Nat.log 10 n = 2 := by
    intro n h1 h2
    rw [Nat.log_eq_iff (by simp)]
    omega
  have h120 : stringify repr [] [] true (.num 120) = "1e+02".toList := by
    have hf : ⌊(120 : ℚ)⌋.toNat = 120 := by norm_num; rfl
    have hr : roundEven ((120 : ℚ) / 10 ^ 2) = 1 := by
      have : ⌊(120 : ℚ) / 10 ^ 2⌋ = 1 := by rw [Int.floor_eq_iff]; norm_num
      unfold roundEven
      simp only [this]
      norm_num
    have : oneDigit 120 = (1, 2) := by
      unfold oneDigit
      simp only [hf, hl 120 (by norm_num) (by norm_num), hr]
      norm_num
    simp only [stringify, this]
    rw [if_pos (by norm_num)]
    decide +kernel
  have h140 : stringify repr [] [] true (.num 140) = "1e+02".toList := by
    have hf : ⌊(140 : ℚ)⌋.toNat = 140 := by norm_num; rfl
    have hr : roundEven ((140 : ℚ) / 10 ^ 2) = 1 := by
      have : ⌊(140 : ℚ) / 10 ^ 2⌋ = 1 := by rw [Int.floor_eq_iff]; norm_num
      unfold roundEven
      simp only [this]
      norm_num
    have : oneDigit 140 = (1, 2) := by
      unfold oneDigit
      simp only [hf, hl 140 (by norm_num) (by norm_num), hr]
      norm_num
    simp only [stringify, this]
    rw [if_pos (by norm_num)]
    decide +kernel
  refine ⟨h120, h140, ?_⟩
  simp only [List.map_cons, List.map_nil, h120, h140]
  decide +kernel

/-- **C190 does not hold of all values**: nothing, the empty text, the empty list and the text `none` are written alike, a number and its text, a text with a comma and two texts (even with brackets);
without brackets lists in lists and lists of one entry lose their structure. -/
theorem C190_false (repr : ℚ → List Char) (pre suf : List Char) (sci : Bool) :
    (∀ a ∈ [TextVal.text [], TextVal.list [], TextVal.text "none".toList], stringify repr pre suf sci a = stringify repr pre suf sci .none) ∧
    (∀ q, q ≤ 100 → repr q ≠ [] → stringify repr pre suf sci (.text (repr q)) = stringify repr pre suf sci (.num q)) ∧
    stringify repr pre suf sci (.list [.text "a,b".toList]) = stringify repr pre suf sci (.list [.text "a".toList, .text "b".toList]) ∧
    (∀ a, stringify repr [] [] sci (.list [a]) = stringify repr [] [] sci a) ∧
    ∀ a b c, stringify repr [] [] sci (.list [.list [a, b], c]) = stringify repr [] [] sci (.list [a, b, c]) := by
  refine ⟨?_, ?_, ?_, ?_, ?_⟩
  · intro a ha
    simp only [List.mem_cons, List.not_mem_nil, or_false] at ha
    rcases ha with rfl | rfl | rfl <;> simp [stringify]
  · intro q hq hne
    simp [stringify, hne, not_lt.2 hq]
  · simp [stringify, stringifyRest]
  · intro a
    simp [stringify, stringifyRest]
  · intro a b c
    simp [stringify, stringifyRest]

/-! #### Examples -/

/-- A way of writing numbers that meets the premises. -/
def fracText (q : ℚ) : List Char := (if q.num < 0 then ['-'] else []) ++ (Nat.toDigits 10 q.num.natAbs ++ '/' :: Nat.toDigits 10 q.den)

theorem toDigits_mem {n : ℕ} {c : Char} (h : c ∈ Nat.toDigits 10 n) : c.isDigit = true := Nat.isDigit_of_mem_toDigits (by decide) (by decide) h

theorem toDigits_inj {m n : ℕ} (h : Nat.toDigits 10 m = Nat.toDigits 10 n) : m = n := by
  rw [← Nat.ofDigitChars_ten_toDigits (n := m), h, Nat.ofDigitChars_ten_toDigits]

theorem slash_split {x y e e' : List Char} (hx : '/' ∉ x) (hy : '/' ∉ y) (h : x ++ '/' :: e = y ++ '/' :: e') : x = y ∧ e = e' := by
  induction x generalizing y with
  | nil =>
    cases y with
    | nil => simpa using h
    | cons d y =>
      simp only [List.nil_append, List.cons_append, List.cons.injEq] at h
      exact absurd (by rw [← h.1]; simp) hy
  | cons c x ih =>
    cases y with
    | nil =>
      simp only [List.nil_append, List.cons_append, List.cons.injEq] at h
      exact absurd (by rw [h.1]; simp) hx
    | cons d y =>
      simp only [List.cons_append, List.cons.injEq] at h
      obtain ⟨h1, h2⟩ := ih (fun hm => hx (by simp [hm])) (fun hm => hy (by simp [hm])) h.2
      exact ⟨by rw [h.1, h1], h2⟩

theorem fracText_good : Spec.GoodRepr fracText := by
  have hmem : ∀ q, ∀ c ∈ fracText q, c = '-' ∨ c = '/' ∨ c.isDigit = true := by
    intro q c hc
    unfold fracText at hc
    simp only [List.mem_append, List.mem_cons] at hc
    rcases hc with hc | hc | rfl | hc
    · split at hc <;> simp at hc
      exact Or.inl hc
    · exact Or.inr (Or.inr (toDigits_mem hc))
    · exact Or.inr (Or.inl rfl)
    · exact Or.inr (Or.inr (toDigits_mem hc))
  have hslash : ∀ q, '/' ∈ fracText q := fun q => by simp [fracText]
  refine ⟨?_, fun q => List.ne_nil_of_mem (hslash q), ?_, ?_⟩
  · intro p q h
    have hd : ∀ n, '/' ∉ Nat.toDigits 10 n := fun n hm => by simpa using toDigits_mem hm
    have hsign : ∀ m n : ℕ, '-' :: Nat.toDigits 10 m ≠ Nat.toDigits 10 n := by
      intro m n e
      have : '-' ∈ Nat.toDigits 10 n := by rw [← e]; simp
      simpa using toDigits_mem this
    have hno : ∀ q : ℚ, '/' ∉ (if q.num < 0 then ['-'] else []) ++ Nat.toDigits 10 q.num.natAbs := by
      intro q
      by_cases hq : q.num < 0
      · simpa [hq] using hd q.num.natAbs
      · simpa [hq] using hd q.num.natAbs
    unfold fracText at h
    rw [← List.append_assoc, ← List.append_assoc] at h
    obtain ⟨h1, h2⟩ := slash_split (hno p) (hno q) h
    refine Rat.ext ?_ (toDigits_inj h2)
    by_cases hp : p.num < 0 <;> by_cases hq : q.num < 0
    · rw [if_pos hp, if_pos hq] at h1
      have := toDigits_inj (List.append_cancel_left h1)
      omega
    · rw [if_pos hp, if_neg hq] at h1
      exact absurd h1 (hsign _ _)
    · rw [if_neg hp, if_pos hq] at h1
      exact absurd h1.symm (hsign _ _)
    · rw [if_neg hp, if_neg hq] at h1
      have := toDigits_inj (List.append_cancel_left h1)
      omega
  · intro q c hc hs
    have := hmem q c hc
    rcases hs with rfl | rfl | rfl <;> simp at this
  · intro q hq
    have := hslash q
    simp only [List.mem_cons, List.not_mem_nil, or_false] at hq
    rcases hq with h | h | h | h | h | h <;> rw [h] at this <;> simp at this

/-- Two swept ranges of parameters, written as ids are. -/
example : stringify fracText ['['] [']'] false (.list [.list [.num (1 / 2), .num 150], .text "Pi".toList]) = "[[1/2,150/1],Pi]".toList := by decide +kernel

/-- The premises of `C190_ids` hold of it. -/
example : Spec.PlainValue fracText (.list [.list [.num (1 / 2), .num 150], .text "Pi".toList]) := by
  simp only [Spec.PlainValue, Spec.PlainValues, and_true, true_and]
  refine ⟨by decide, ?_, by decide, fun q h => ?_⟩
  · intro c hc hs
    have : c = 'P' ∨ c = 'i' := by simpa using hc
    rcases this with rfl | rfl <;> rcases hs with h | h | h <;> exact absurd h (by decide)
  · have h1 : '/' ∈ fracText q := by simp [fracText]
    rw [← h] at h1
    exact absurd h1 (by decide)

/-- The numbers 101, …, 111 meet the premises of `C190_scientific_shared`. -/
example : ∃ i j : Fin 11, i ≠ j ∧ ∀ repr pre suf, stringify repr pre suf true (.num ((101 + i.val : ℕ) : ℚ)) = stringify repr pre suf true (.num ((101 + j.val : ℕ) : ℚ)) := by
  refine C190_scientific_shared 2 (fun i => ((101 + i.val : ℕ) : ℚ)) (fun i => ?_) (fun i => ?_)
  · have : ((101 : ℕ) : ℚ) ≤ ((101 + i.val : ℕ) : ℚ) := by exact_mod_cast Nat.le_add_right _ _
    push_cast at this ⊢
    linarith
  · have : ⌊((101 + i.val : ℕ) : ℚ)⌋.toNat = 101 + i.val := by rw [Int.floor_natCast, Int.toNat_natCast]
    rw [this, Nat.log_eq_iff (by simp)]
    have := i.isLt
    omega

end GeNSIT
