import Verif.Outputs.Collection

/-!
# Properties of the data collection (C110) and of the summaries (C112)
-/

set_option linter.unusedSimpArgs false
set_option linter.unusedVariables false

namespace GeNSIT

namespace Spec

/-- The number of groups that every sample of the collection has. -/
def HasGroups {A : Type} (c : Coll A) (n : Nat) : Prop := ∀ s ∈ c.samples, s.2.length = n

/-- `row` holds, for every sample of the collection and in the same order, the element at position `pos len` of its list. -/
def IsRow {A : Type} (c : Coll A) (pos : Nat → Nat) (row : List (String × Option A)) : Prop :=
  row.length = c.samples.length ∧
  ∀ (k : Nat) (name : String) (xs : List (Option A)), c.samples[k]? = some (name, xs) → ∃ x, xs[pos xs.length]? = some x ∧ row[k]? = some (name, x)

end Spec

open Spec

variable {A : Type}

/-! ## Indexing -/

theorem getItem_ok (i : Nat) : ∀ (ss : List (String × List (Option A))), (∀ s ∈ ss, i < s.2.length) →
    ∃ row, getItem (i : Int) ss = .ok row ∧ row.length = ss.length ∧
      ∀ (k : Nat) (name : String) (xs : List (Option A)), ss[k]? = some (name, xs) → ∃ x, xs[i]? = some x ∧ row[k]? = some (name, x)
  | [], _ => ⟨[], rfl, rfl, by simp⟩
  | (n, ys) :: rest, h => by
    have hy : i < ys.length := h (n, ys) (by simp)
    obtain ⟨row, h1, h2, h3⟩ := getItem_ok i rest (fun s hs => h s (by simp [hs]))
    refine ⟨(n, ys[i]) :: row, ?_, by simp [h2], ?_⟩
    · rw [getItem, if_neg (by omega), show pyItem ys (i : Int) = some ys[i] by simp [pyItem, hy], h1]; rfl
    · intro k name xs hk
      cases k with
      | zero =>
        simp only [List.getElem?_cons_zero, Option.some.injEq, Prod.mk.injEq] at hk
        obtain ⟨rfl, rfl⟩ := hk
        exact ⟨ys[i], by simp [hy], rfl⟩
      | succ k => simpa using h3 k name xs (by simpa using hk)

theorem getItem_keyError (i : Nat) : ∀ (ss : List (String × List (Option A))), (∃ s ∈ ss, s.2.length ≤ i) →
    getItem (i : Int) ss = .error .keyError
  | [], h => by simp at h
  | (n, ys) :: rest, h => by
    rw [getItem]
    split
    · rfl
    · rename_i hi
      have hy : i < ys.length := by omega
      rw [show pyItem ys (i : Int) = some ys[i] by simp [pyItem, hy]]
      have hrest : ∃ s ∈ rest, s.2.length ≤ i := by
        obtain ⟨s, hs, hl⟩ := h
        rcases List.mem_cons.mp hs with rfl | hs
        · simp at hl; omega
        · exact ⟨s, hs, hl⟩
      simp only [getItem_keyError i rest hrest]; rfl

/-- `coll[i]` for `i ≥ 0` succeeds exactly when every sample has more than `i` groups, and then holds the `i`-th group of every
sample; otherwise a `KeyError` is raised. -/
theorem C110_getitem (c : Coll A) (i : Nat) :
    ((∀ s ∈ c.samples, i < s.2.length) → ∃ row, getItem (i : Int) c.samples = .ok row ∧ IsRow c (fun _ => i) row) ∧
    ((∃ s ∈ c.samples, s.2.length ≤ i) → getItem (i : Int) c.samples = .error .keyError) := by
  refine ⟨fun h => ?_, getItem_keyError i c.samples⟩
  obtain ⟨row, h1, h2, h3⟩ := getItem_ok i c.samples h
  exact ⟨row, h1, h2, h3⟩

example : getItem 1 [("table", [some 'a', some 'b']), ("theta", [some 'c', some 'd', some 'e'])]
    = Except.ok [("table", some 'b'), ("theta", some 'd')] := rfl
example : getItem 2 [("table", [some 'a', some 'b']), ("theta", [some 'c', some 'd', some 'e'])] = Except.error CollError.keyError := rfl

theorem getItem_neg (k : Nat) : ∀ (ss : List (String × List (Option A))), (∀ s ∈ ss, k < s.2.length) →
    ∃ row, getItem (-(k + 1 : Nat) : Int) ss = .ok row ∧ row.length = ss.length ∧
      ∀ (j : Nat) (name : String) (xs : List (Option A)), ss[j]? = some (name, xs) →
        ∃ x, xs[xs.length - (k + 1)]? = some x ∧ row[j]? = some (name, x)
  | [], _ => ⟨[], rfl, rfl, by simp⟩
  | (n, ys) :: rest, h => by
    have hy : k < ys.length := h (n, ys) (by simp)
    obtain ⟨row, h1, h2, h3⟩ := getItem_neg k rest (fun s hs => h s (by simp [hs]))
    have hlt : ys.length - (k + 1) < ys.length := by omega
    have hp : pyItem ys (-(k + 1 : Nat) : Int) = some ys[ys.length - (k + 1)] := by
      rw [pyItem, if_neg (by omega), if_pos (by omega)]
      have : (- (-(k + 1 : Nat) : Int)).toNat = k + 1 := by omega
      rw [this, List.getElem?_eq_getElem hlt]
    refine ⟨(n, ys[ys.length - (k + 1)]) :: row, ?_, by simp [h2], ?_⟩
    · rw [getItem, if_neg (by omega), hp, h1]; rfl
    · intro j name xs hk
      cases j with
      | zero =>
        simp only [List.getElem?_cons_zero, Option.some.injEq, Prod.mk.injEq] at hk
        obtain ⟨rfl, rfl⟩ := hk
        exact ⟨_, List.getElem?_eq_getElem hlt, rfl⟩
      | succ j => simpa using h3 j name xs (by simpa using hk)

theorem getItem_neg_error (k : Nat) : ∀ (ss : List (String × List (Option A))), (∃ s ∈ ss, s.2.length ≤ k) →
    getItem (-(k + 1 : Nat) : Int) ss = .error .indexError
  | [], h => by simp at h
  | (n, ys) :: rest, h => by
    rw [getItem, if_neg (by omega)]
    by_cases hy : k < ys.length
    · have hlt : ys.length - (k + 1) < ys.length := by omega
      have hp : pyItem ys (-(k + 1 : Nat) : Int) = some ys[ys.length - (k + 1)] := by
        rw [pyItem, if_neg (by omega), if_pos (by omega)]
        have : (- (-(k + 1 : Nat) : Int)).toNat = k + 1 := by omega
        rw [this, List.getElem?_eq_getElem hlt]
      have hrest : ∃ s ∈ rest, s.2.length ≤ k := by
        obtain ⟨s, hs, hl⟩ := h
        rcases List.mem_cons.mp hs with rfl | hs
        · simp at hl; omega
        · exact ⟨s, hs, hl⟩
      rw [hp]
      simp only [getItem_neg_error k rest hrest]; rfl
    · have hp : pyItem ys (-(k + 1 : Nat) : Int) = none := by
        rw [pyItem, if_neg (by omega), if_neg (by omega)]
      rw [hp]

/-- Negative positions count from the end of every sample separately; one that is too small for some sample is an `IndexError`
of a list, not the collection's `KeyError`. -/
theorem C110_getitem_negative (c : Coll A) (k : Nat) :
    ((∀ s ∈ c.samples, k < s.2.length) → ∃ row, getItem (-(k + 1 : Nat) : Int) c.samples = .ok row ∧ IsRow c (fun n => n - (k + 1)) row) ∧
    ((∃ s ∈ c.samples, s.2.length ≤ k) → getItem (-(k + 1 : Nat) : Int) c.samples = .error .indexError) := by
  refine ⟨fun h => ?_, getItem_neg_error k c.samples⟩
  obtain ⟨row, h1, h2, h3⟩ := getItem_neg k c.samples h
  exact ⟨row, h1, h2, h3⟩

example : getItem (-1) [("table", [some 'a', some 'b']), ("theta", [some 'c', some 'd', some 'e'])]
    = Except.ok [("table", some 'b'), ("theta", some 'e')] := rfl

/-! ## Length -/

/-- `len(coll)` is the number of groups common to all samples (0 when there is no sample) and raises exactly when two samples
have different numbers of groups. -/
theorem C110_len (c : Coll A) :
    (∀ n, collLen c = .ok n ↔ HasGroups c n ∧ (c.samples = [] → n = 0)) ∧
    (collLen c = .error .irregularSize ↔ ∃ s ∈ c.samples, ∃ t ∈ c.samples, s.2.length ≠ t.2.length) := by
  have hall : (collSizes c).dedup.length ≤ 1 ↔ ∀ s ∈ c.samples, ∀ t ∈ c.samples, s.2.length = t.2.length := by
    constructor
    · intro h s hs t ht
      have h1 : s.2.length ∈ (collSizes c).dedup := List.mem_dedup.mpr (List.mem_map.mpr ⟨s, hs, rfl⟩)
      have h2 : t.2.length ∈ (collSizes c).dedup := List.mem_dedup.mpr (List.mem_map.mpr ⟨t, ht, rfl⟩)
      match hd : (collSizes c).dedup, h with
      | [], _ => rw [hd] at h1; simp at h1
      | [x], _ => rw [hd] at h1 h2; simp at h1 h2; omega
      | _ :: _ :: _, h => simp at h
    · intro h
      by_contra hlt
      match hd : (collSizes c).dedup with
      | [] => rw [hd] at hlt; simp at hlt
      | [x] => rw [hd] at hlt; simp at hlt
      | x :: y :: r =>
        have hnd := List.nodup_dedup (collSizes c)
        rw [hd] at hnd
        have hx : x ∈ (collSizes c).dedup := by rw [hd]; simp
        have hy : y ∈ (collSizes c).dedup := by rw [hd]; simp
        obtain ⟨s, hs, rfl⟩ := List.mem_map.mp (List.mem_dedup.mp hx)
        obtain ⟨t, ht, rfl⟩ := List.mem_map.mp (List.mem_dedup.mp hy)
        have := h s hs t ht
        simp [this] at hnd
  constructor
  · intro n
    unfold collLen
    constructor
    · intro h
      split at h
      · rename_i hle
        rw [hall] at hle
        simp only [Except.ok.injEq] at h
        subst h
        refine ⟨fun s hs => ?_, fun h => by simp [collSizes, h]⟩
        cases hc : c.samples with
        | nil => rw [hc] at hs; simp at hs
        | cons t r =>
          simp only [collSizes, hc, List.map_cons, List.headD_cons]
          exact hle s hs t (by rw [hc]; simp)
      · cases h
    · rintro ⟨h1, h2⟩
      rw [if_pos (hall.mpr fun s hs t ht => (h1 s hs).trans (h1 t ht).symm)]
      congr 1
      cases hc : c.samples with
      | nil => simp [collSizes, hc, h2 hc]
      | cons t r => simp only [collSizes, hc, List.map_cons, List.headD_cons]; exact h1 t (by rw [hc]; simp)
  · unfold collLen
    constructor
    · intro h
      split at h
      · cases h
      · rename_i hle
        rw [hall] at hle
        push Not at hle
        exact hle
    · rintro ⟨s, hs, t, ht, hne⟩
      rw [if_neg (fun hle => hne (hall.mp hle s hs t ht))]

example : collLen (⟨0, [("table", [some 'a', some 'b']), ("theta", [some 'c', some 'd'])]⟩ : Coll Char) = .ok 2 := by decide +kernel
example : collLen (⟨0, [("table", [some 'a', some 'b']), ("theta", [some 'c'])]⟩ : Coll Char) = .error .irregularSize := by decide +kernel

/-- A collection of length `n` has exactly the positions `0 … n-1` and, unless it has no sample at all, no other. -/
theorem C110_len_getitem (c : Coll A) (n : Nat) (h : collLen c = .ok n) (i : Nat) :
    (i < n → ∃ row, getItem (i : Int) c.samples = .ok row) ∧
    (n ≤ i → c.samples ≠ [] → getItem (i : Int) c.samples = .error .keyError) := by
  obtain ⟨hg, h0⟩ := ((C110_len c).1 n).mp h
  constructor
  · intro hi
    obtain ⟨row, hr, _⟩ := (C110_getitem c i).1 (fun s hs => by rw [hg s hs]; exact hi)
    exact ⟨row, hr⟩
  · intro hi hne
    refine (C110_getitem c i).2 ?_
    cases hc : c.samples with
    | nil => exact absurd hc hne
    | cons s r => exact ⟨s, by simp, by rw [hg s (by rw [hc]; simp)]; exact hi⟩

/-! ## Assignment -/

theorem findSample_putSample (name : String) (v : List (Option A)) (m : String) : ∀ (ss : List (String × List (Option A))),
    findSample m (putSample name v ss) = if m = name then some v else findSample m ss
  | [] => by
    by_cases h : m = name
    · simp [putSample, findSample, h]
    · simp [putSample, findSample, h, Ne.symm h]
  | (n, xs) :: rest => by
    unfold putSample
    split
    · rename_i hn
      subst hn
      by_cases h : m = n
      · simp [findSample, h]
      · simp [findSample, h, Ne.symm h]
    · rename_i hn
      simp only [findSample, findSample_putSample name v m rest]
      by_cases h : m = name
      · subst h; simp [hn]
      · simp [h]

theorem pySetItem_nat {α : Type} (xs : List α) (i : Nat) (v : α) :
    pySetItem xs (i : Int) v = if i < xs.length then some (xs.set i v) else none := by
  simp [pySetItem]

/-- `coll[i] = new` for `i ≥ 0` succeeds exactly when every attribute of `new` is a known sample name and position `i` exists:
in the sample's own list if the collection has that sample, among the `data_length` arrays given to the constructor
otherwise. -/
theorem C110_setitem_succeeds (known : String → Bool) (i : Nat) : ∀ (new : List (String × A)) (c : Coll A), (new.map (·.1)).Nodup →
    ((setItem known (i : Int) new c).2 = .ok () ↔
      ∀ e ∈ new, known e.1 = true ∧ i < (((findSample e.1 c.samples).map List.length).getD c.dataLength))
  | [], c, _ => by simp [setItem]
  | (name, v) :: rest, c, hnd => by
    simp only [List.map_cons, List.nodup_cons] at hnd
    have step : ∀ w : List (Option A), ((setItem known (i : Int) rest { c with samples := putSample name w c.samples }).2 = .ok () ↔
        ∀ e ∈ rest, known e.1 = true ∧ i < (((findSample e.1 c.samples).map List.length).getD c.dataLength)) := by
      intro w
      rw [C110_setitem_succeeds known i rest _ hnd.2]
      refine forall_congr' fun e => forall_congr' fun he => ?_
      have : e.1 ≠ name := fun h => hnd.1 (List.mem_map.mpr ⟨e, he, h⟩)
      simp only [findSample_putSample, this, if_false]
    rw [setItem]
    simp only [List.forall_mem_cons]
    split
    · rename_i hk
      cases hf : findSample name c.samples with
      | some xs =>
        simp only
        split
        · rename_i hle
          constructor
          · intro h; cases h
          · rintro ⟨⟨_, h⟩, _⟩
            simp at h; omega
        · rename_i hle
          rw [pySetItem_nat, if_pos (by omega)]
          simp only [step]
          constructor
          · intro h; exact ⟨⟨hk, by simp; omega⟩, h⟩
          · intro h; exact h.2
      | none =>
        simp only [pySetItem_nat, List.length_replicate]
        by_cases hlt : i < c.dataLength
        · simp only [if_pos hlt, step]
          constructor
          · intro h; exact ⟨⟨hk, by simpa using hlt⟩, h⟩
          · intro h; exact h.2
        · simp only [if_neg hlt]
          constructor
          · intro h; cases h
          · rintro ⟨⟨_, h⟩, _⟩
            simp at h; omega
    · rename_i hk
      constructor
      · intro h; cases h
      · rintro ⟨⟨h, _⟩, _⟩; exact absurd h hk

/-- After a successful assignment at position `i` every assigned sample holds the new array at position `i` and its old arrays
elsewhere (placeholders, if the sample is new), and every other sample is untouched. -/
theorem C110_setitem_effect (known : String → Bool) (i : Nat) : ∀ (new : List (String × A)) (c : Coll A), (new.map (·.1)).Nodup →
    (setItem known (i : Int) new c).2 = .ok () → ∀ (name : String),
    (∀ v, (name, v) ∈ new → ∃ xs, findSample name (setItem known (i : Int) new c).1.samples = some xs ∧ xs[i]? = some (some v) ∧
      ∀ j, j ≠ i → xs[j]? = ((findSample name c.samples).getD (List.replicate c.dataLength none))[j]?) ∧
    (name ∉ new.map (·.1) → findSample name (setItem known (i : Int) new c).1.samples = findSample name c.samples)
  | [], c, _, _ => by simp [setItem]
  | (nm, w) :: rest, c, hnd, hok => by
    intro name
    have hnd0 := hnd
    simp only [List.map_cons, List.nodup_cons] at hnd
    have hsucc := (C110_setitem_succeeds known i ((nm, w) :: rest) c hnd0).mp hok
    obtain ⟨hk, hlt⟩ := hsucc (nm, w) (by simp)
    obtain ⟨xs, hxs, hlen⟩ : ∃ xs, (findSample nm c.samples).getD (List.replicate c.dataLength none) = xs ∧ i < xs.length := by
      refine ⟨_, rfl, ?_⟩
      cases hf : findSample nm c.samples with
      | some ys => simp only [hf] at hlt; simpa using hlt
      | none => simp only [hf] at hlt; simpa using hlt
    have hstep : setItem known (i : Int) ((nm, w) :: rest) c
        = setItem known (i : Int) rest { c with samples := putSample nm (xs.set i (some w)) c.samples } := by
      rw [setItem, if_pos hk]
      cases hf : findSample nm c.samples with
      | some ys =>
        simp only [hf, Option.getD_some] at hxs
        subst hxs
        simp only
        rw [if_neg (by omega), pySetItem_nat, if_pos hlen]
      | none =>
        simp only [hf, Option.getD_none] at hxs
        subst hxs
        simp only [pySetItem_nat]
        rw [if_pos hlen]
    rw [hstep] at hok ⊢
    obtain ⟨ih1, ih2⟩ := C110_setitem_effect known i rest _ hnd.2 hok name
    constructor
    · intro v hv
      rcases List.mem_cons.mp hv with hv | hv
      · obtain ⟨rfl, rfl⟩ := Prod.mk.injEq .. ▸ hv
        refine ⟨xs.set i (some v), ?_, by simp [hlen], ?_⟩
        · rw [ih2 hnd.1]; simp [findSample_putSample]
        · intro j hj
          rw [hxs, List.getElem?_set_ne (Ne.symm hj)]
      · have hne : name ≠ nm := fun h => hnd.1 (List.mem_map.mpr ⟨(name, v), hv, h⟩)
        obtain ⟨ys, h1, h2, h3⟩ := ih1 v hv
        refine ⟨ys, h1, h2, fun j hj => ?_⟩
        have := h3 j hj
        simpa [findSample_putSample, hne] using this
    · intro hn
      simp only [List.map_cons, List.mem_cons, not_or] at hn
      rw [ih2 hn.2]
      simp [findSample_putSample, hn.1]

/-- Assigning an existing and a new sample at position 1. -/
example : setItem (fun s => s == "table" || s == "theta") 1 [("theta", 'x'), ("table", 'y')]
      (⟨2, [("table", [some 'a', some 'b'])]⟩ : Coll Char)
    = (⟨2, [("table", [some 'a', some 'y']), ("theta", [none, some 'x'])]⟩, .ok ()) := rfl

/-- An assignment that raises may already have changed the collection. -/
theorem C110_setitem_atomic_false :
    ∃ (known : String → Bool) (new : List (String × Char)) (c : Coll Char), (setItem known 0 new c).2 ≠ .ok () ∧ (setItem known 0 new c).1 ≠ c :=
  ⟨fun s => s == "table", [("table", 'x'), ("title", 'y')], ⟨1, [("table", [some 'a'])]⟩, by decide +kernel, by decide +kernel⟩

/-- A collection created without data accepts no new sample by assignment: its `data_length` is 0. The sample is nevertheless
left behind, with no groups. -/
theorem C110_setitem_empty_false (known : String → Bool) (i : Nat) (name : String) (v : A) (hk : known name = true) :
    setItem known (i : Int) [(name, v)] (⟨0, []⟩ : Coll A) = (⟨0, [(name, [])]⟩, .error .indexError) := by
  simp [setItem, hk, findSample, pySetItem, putSample]

/-- What `coll[i]` returns can never be assigned back: `coll[j] = coll[i]` raises `InvalidDataNames` and changes nothing, for
every collection, position and row. -/
theorem C110_assign_row_false (known : String → Bool) (hl : known "logger" = false) (index : Int) (logger dataLength : A)
    (row : List (String × A)) (c : Coll A) : assignRow known index logger dataLength row c = (c, .error .invalidDataNames) := by
  simp [assignRow, setItem, hl]

/-- `del coll[i]` always raises a `TypeError`. -/
theorem C110_del_false (index : Int) (c : Coll A) : delItem index none c = (c, .error .typeError) := by
  rw [delItem]

/-- Called with sample names, it removes position `i` from these samples only. -/
theorem C110_delitem_names (i : Nat) : ∀ (names : List String) (c : Coll A), names.Nodup →
    (∀ n ∈ names, ∀ xs, findSample n c.samples = some xs → i < xs.length) →
    (delItem (i : Int) (some names) c).2 = .ok () ∧
    ∀ m, findSample m (delItem (i : Int) (some names) c).1.samples =
      if m ∈ names then (findSample m c.samples).map (·.eraseIdx i) else findSample m c.samples
  | [], c, _, _ => by simp [delItem]
  | n :: names, c, hnd, h => by
    simp only [List.nodup_cons] at hnd
    rw [delItem]
    cases hf : findSample n c.samples with
    | none =>
      simp only
      obtain ⟨h1, h2⟩ := C110_delitem_names i names c hnd.2 (fun m hm => h m (by simp [hm]))
      refine ⟨h1, fun m => ?_⟩
      rw [h2 m]
      by_cases hm : m = n
      · subst hm; simp [hnd.1, hf]
      · simp [hm]
    | some xs =>
      have hlt := h n (by simp) xs hf
      simp only
      rw [if_neg (by omega), if_pos (by omega), Int.toNat_natCast]
      obtain ⟨h1, h2⟩ := C110_delitem_names i names { c with samples := putSample n (xs.eraseIdx i) c.samples } hnd.2 (by
        intro m hm ys hy
        have hne : m ≠ n := fun e => hnd.1 (e ▸ hm)
        simp only [findSample_putSample, hne, if_false] at hy
        exact h m (by simp [hm]) ys hy)
      refine ⟨h1, fun m => ?_⟩
      rw [h2 m]
      simp only [findSample_putSample]
      by_cases hm : m = n
      · subst hm; simp [hnd.1, hf]
      · simp [hm]

example : delItem 0 (some ["theta"]) (⟨0, [("table", [some 'a', some 'b']), ("theta", [some 'c', some 'd'])]⟩ : Coll Char)
    = (⟨0, [("table", [some 'a', some 'b']), ("theta", [some 'd'])]⟩, .ok ()) := by
  simp [delItem, findSample, putSample]

/-! ## Iteration -/

/-- `for row in coll` does not end at the end of the collection: with at least one sample the loop is left with a `KeyError`
after the last row, and with no sample it never ends. -/
theorem C110_iteration_false (c : Coll A) (n : Nat) (h : collLen c = .ok n) :
    (c.samples ≠ [] → ∃ rows, iterate c (n + 1) 0 = some (rows, some .keyError) ∧ rows.length = n) ∧
    (c.samples = [] → ∀ fuel, iterate c fuel 0 = none) := by
  constructor
  · intro hne
    have key : ∀ (m i : Nat), i + m = n → ∃ rows, iterate c (m + 1) i = some (rows, some .keyError) ∧ rows.length = m := by
      intro m
      induction m with
      | zero =>
        intro i hi
        have := (C110_len_getitem c n h i).2 (by omega) hne
        exact ⟨[], by simp [iterate, this], rfl⟩
      | succ m ih =>
        intro i hi
        obtain ⟨row, hr⟩ := (C110_len_getitem c n h i).1 (by omega)
        obtain ⟨rows, h1, h2⟩ := ih (i + 1) (by omega)
        exact ⟨row :: rows, by rw [iterate]; simp [hr, h1], by simp [h2]⟩
    simpa using key n 0 (by omega)
  · intro he fuel
    have key : ∀ (fuel i : Nat), iterate c fuel i = none := by
      intro fuel
      induction fuel with
      | zero => intro i; rfl
      | succ f ih => intro i; rw [iterate, he]; simp [getItem, ih]
    exact key fuel 0

example : (iterate (⟨0, [("table", [some 'a', some 'b'])]⟩ : Coll Char) 3 0) = some ([[("table", some 'a')], [("table", some 'b')]], some .keyError) := rfl

/-! ## Removing data -/

/-- `pop` does not remove anything: the collection is the same afterwards, so that any number of calls returns the first group
every time. -/
theorem C110_pop_false (c : Coll A) (n : Nat) (h : collLen c = .ok (n + 1)) (k : Nat) :
    (outputsPop c).1 = c ∧
    ∃ row, getItem 0 c.samples = .ok row ∧ popTimes k c = .ok (List.replicate k (some row)) := by
  obtain ⟨row, hr⟩ := (C110_len_getitem c (n + 1) h 0).1 (by omega)
  have hr' : getItem (0 : Int) c.samples = .ok row := hr
  have hp : outputsPop c = (c, .ok (some row)) := by
    simp only [outputsPop, h, outputsGet, hr']; rfl
  refine ⟨by rw [hp], row, hr', ?_⟩
  induction k with
  | zero => rfl
  | succ k ih => rw [popTimes, hp]; simp only [ih]; rfl

/-- `strip_data` with nothing to keep empties the collection; with sample names only it keeps exactly these samples, with all
their groups; with group positions only it keeps these positions of every sample. -/
theorem C110_strip_partial (c : Coll A) :
    (stripOutputs [] [] c).samples = [] ∧
    (∀ keep, keep ≠ [] → (stripOutputs keep [] c).samples = c.samples.filter (fun s => s.1 ∈ keep)) ∧
    (∀ ids, ids ≠ [] → (stripOutputs [] ids c).samples = c.samples.map (fun s => (s.1, keepIds ids s.2))) := by
  refine ⟨by simp [stripOutputs], fun keep hk => ?_, fun ids hi => ?_⟩
  · simp [stripOutputs, hk, List.contains_iff_mem]
  · simp [stripOutputs, hi]

/-- The positions kept: the arrays at the listed positions, in their old order. -/
theorem C110_strip_positions {α : Type} (ids : List Nat) (xs : List α) (x : α) :
    (x ∈ keepIds ids xs ↔ ∃ i ∈ ids, xs[i]? = some x) ∧ (keepIds ids xs).Sublist xs ∧ 
    ((∀ i, i < xs.length → i ∈ ids) → keepIds ids xs = xs) := by
  refine ⟨?_, ?_, ?_⟩
  · simp only [keepIds, List.mem_map, List.mem_filter, List.contains_iff_mem, Prod.exists]
    constructor
    · rintro ⟨a, i, ⟨h1, h2⟩, rfl⟩
      exact ⟨i, h2, List.mem_zipIdx_iff_getElem?.mp h1⟩
    · rintro ⟨i, h1, h2⟩
      exact ⟨x, i, ⟨List.mem_zipIdx_iff_getElem?.mpr h2, h1⟩, rfl⟩
  · have : (keepIds ids xs).Sublist (xs.zipIdx.map (·.1)) := List.Sublist.map _ List.filter_sublist
    simpa using this
  · intro h
    rw [keepIds, List.filter_eq_self.mpr, List.zipIdx_map_fst]
    rintro ⟨a, i⟩ hi
    have := List.mem_zipIdx hi
    simp only [List.contains_iff_mem]
    exact h i (by omega)

example : keepIds [0, 2] ['a', 'b', 'c'] = ['a', 'c'] := by decide +kernel

/-- With both sample names and positions to keep, the samples to keep retain all their groups and the samples that were not to
be kept stay, with the kept positions. -/
theorem C110_strip_both_false (c : Coll A) (keep : List String) (ids : List Nat) (hk : keep ≠ []) (hi : ids ≠ []) :
    ((stripOutputs keep ids c).samples.map (·.1) = c.samples.map (·.1)) ∧
    (∀ s ∈ c.samples, s.1 ∈ keep → s ∈ (stripOutputs keep ids c).samples) := by
  simp only [stripOutputs, List.isEmpty_iff, hk, hi, if_false]
  constructor
  · rw [List.map_map]
    apply List.map_congr_left
    intro s _
    simp only [Function.comp]
    split <;> rfl
  · intro s hs hsk
    refine List.mem_map.mpr ⟨s, hs, ?_⟩
    simp [List.contains_iff_mem, hsk]

example : stripOutputs ["table"] [0] (⟨0, [("table", [some 'a', some 'b']), ("theta", [some 'c', some 'd'])]⟩ : Coll Char)
    = ⟨0, [("table", [some 'a', some 'b']), ("theta", [some 'c'])]⟩ := by decide +kernel

/-! ## C112: summaries -/

/-- Without `pop`, the summary of a folder looks at every group exactly once, in order. -/
theorem C112_every_group_once_partial (c : Coll A) (n : Nat) (h : collLen c = .ok n) :
    ∃ elems, summaryElements false c = .ok elems ∧ elems.length = n ∧
      ∀ j, j < n → ∃ row, elems[j]? = some (some row) ∧ IsRow c (fun _ => j) row := by
  have key : ∀ (m s : Nat), s + m = n → ∃ elems, collectCalls (fun j : Nat => (outputsGet c (j : Int)).map some) (List.range' s m) = .ok elems ∧
      elems.length = m ∧ ∀ j, j < m → ∃ row, elems[j]? = some (some row) ∧ IsRow c (fun _ => s + j) row := by
    intro m
    induction m with
    | zero => intro s _; exact ⟨[], rfl, rfl, by simp⟩
    | succ m ih =>
      intro s hs
      obtain ⟨hg, _⟩ := ((C110_len c).1 n).mp h
      obtain ⟨row, hr, hrow⟩ := (C110_getitem c s).1 (fun t ht => by rw [hg t ht]; omega)
      obtain ⟨elems, h1, h2, h3⟩ := ih (s + 1) (by omega)
      refine ⟨some row :: elems, ?_, by simp [h2], ?_⟩
      · rw [List.range'_succ, collectCalls]
        have hc : (outputsGet c (s : Int)).map some = .ok (some row) := by rw [outputsGet, hr]; rfl
        simp only [hc, h1]
        rfl
      · intro j hj
        cases j with
        | zero => exact ⟨row, rfl, hrow⟩
        | succ j =>
          obtain ⟨r, e1, e2⟩ := h3 j (by omega)
          refine ⟨r, by simpa using e1, ?_⟩
          rwa [show s + (j + 1) = s + 1 + j by omega]
  obtain ⟨elems, h1, h2, h3⟩ := key n 0 (by omega)
  refine ⟨elems, ?_, h2, fun j hj => ?_⟩
  · simp only [summaryElements, h, List.range_eq_range', Bool.false_eq_true, if_false]; exact h1
  · simpa using h3 j hj

example : summaryElements false (⟨0, [("table", [some 'a', some 'b'])]⟩ : Coll Char) = .ok [some [("table", some 'a')], some [("table", some 'b')]] := by decide +kernel

/-- With `pop`, every one of the `n` summaries is computed from the first group: the other groups are never looked at. -/
theorem C112_pop_false (c : Coll A) (n : Nat) (h : collLen c = .ok n) :
    n = 0 ∧ summaryElements true c = .ok [] ∨
    ∃ row, IsRow c (fun _ => 0) row ∧ summaryElements true c = .ok (List.replicate n (some row)) := by
  cases n with
  | zero => exact .inl ⟨rfl, by simp [summaryElements, h, popTimes]⟩
  | succ n =>
    obtain ⟨_, row, h1, h2⟩ := C110_pop_false c n h (n + 1)
    refine .inr ⟨row, ?_, by simp only [summaryElements, h, if_true]; exact h2⟩
    obtain ⟨hg, _⟩ := ((C110_len c).1 _).mp h
    obtain ⟨row', hr', hrow⟩ := (C110_getitem c 0).1 (fun t ht => by rw [hg t ht]; omega)
    have : getItem (0 : Int) c.samples = .ok row' := hr'
    rw [this] at h1
    simp only [Except.ok.injEq] at h1
    exact h1 ▸ hrow

example : summaryElements true (⟨0, [("table", [some 'a', some 'b'])]⟩ : Coll Char) = .ok [some [("table", some 'a')], some [("table", some 'a')]] := by decide +kernel

/-- The rows of a folder in the dictionary. -/
def rowsOf {R : Type} (folder : String) (d : List (String × List R)) : List R := ((d.find? fun e => e.1 = folder).map (·.2)).getD []

theorem rowsOf_addRows {R : Type} (folder f : String) (rows : List R) : ∀ d : List (String × List R),
    rowsOf f (addRows folder rows d) = rowsOf f d ++ (if f = folder then rows else [])
  | [] => by
    by_cases h : f = folder
    · simp [addRows, rowsOf, h]
    · simp [addRows, rowsOf, h, Ne.symm h]
  | (g, old) :: rest => by
    have ih := rowsOf_addRows folder f rows rest
    unfold addRows
    split
    · rename_i hg
      subst hg
      by_cases h : f = g
      · simp [rowsOf, h]
      · simp [rowsOf, h, Ne.symm h]
    · rename_i hg
      by_cases h : g = f
      · subst h; simp [rowsOf, hg]
      · simp only [rowsOf, List.find?_cons, h, decide_false] at ih ⊢
        exact ih

/-- The collected rows of a folder are all rows of all its groups, in order; a folder listed twice is counted twice, no folder
gets rows of another. -/
theorem C112_rows {R : Type} (folders : List (String × List (List R))) (folder : String) :
    rowsOf folder (collectMetadata folders) = ((folders.filter fun f => f.1 = folder).map fun f => f.2.flatten).flatten := by
  have inner : ∀ (name : String) (results : List (List R)) (acc : List (String × List R)),
      rowsOf folder (results.foldl (fun acc rows => if rows.isEmpty then acc else addRows name rows acc) acc) =
        rowsOf folder acc ++ (if folder = name then results.flatten else []) := by
    intro name results
    induction results with
    | nil => intro acc; simp
    | cons r rs ih =>
      intro acc
      rw [List.foldl_cons, ih]
      by_cases hr : r.isEmpty = true
      · rw [List.isEmpty_iff] at hr; subst hr; simp
      · rw [if_neg hr, rowsOf_addRows]
        by_cases h : folder = name <;> simp [h]
  have outer : ∀ (fs : List (String × List (List R))) (acc : List (String × List R)),
      rowsOf folder (fs.foldl (fun acc f => f.2.foldl (fun acc rows => if rows.isEmpty then acc else addRows f.1 rows acc) acc) acc) =
        rowsOf folder acc ++ ((fs.filter fun f => f.1 = folder).map fun f => f.2.flatten).flatten := by
    intro fs
    induction fs with
    | nil => intro acc; simp
    | cons f fs ih =>
      intro acc
      rw [List.foldl_cons, ih, inner]
      by_cases h : f.1 = folder
      · simp [h]
      · simp [h, Ne.symm h]
  simpa [collectMetadata, rowsOf] using outer folders []

example : collectMetadata [("exp1", [[1, 2], [], [3]]), ("exp2", [[]]), ("exp1", [[4]])] = [("exp1", [1, 2, 3, 4])] := by decide +kernel

end GeNSIT
