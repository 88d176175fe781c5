import Verif.Import.Model
import Verif.Table.Spec
import Verif.Table.Lemmas
import Mathlib.Algebra.BigOperators.Fin

/-! # Property theorem C27 (imported bases) -/

set_option linter.unusedSimpArgs false

namespace GeNSIT

open Spec

/-- The `m × n` table of an imported basis function: its entries, zero elsewhere. -/
def fnTable (m n : Nat) (f : BasisFn) : Table m n := fun i j => (f.lookup ((i : Nat), (j : Nat))).getD 0

/-- What the import filter must keep: something changes, no constrained margin changes, no fixed cell changes. -/
structure Admissible {m n : Nat} (constrained : List Ax) (fixed : List (Cell m n)) (t : Table m n) : Prop where
  nonzero : ∃ i j, t i j ≠ 0
  rows : [1] ∈ constrained → ∀ i, rowSum t i = 0
  cols : [0] ∈ constrained → ∀ j, colSum t j = 0
  grand : [0, 1] ∈ constrained → total t = 0
  cells : ∀ i j, (i, j) ∈ fixed → t i j = 0

/-- A dictionary that fits an `m × n` table: non-empty, no repeated key, all keys inside. -/
structure Fits (m n : Nat) (f : BasisFn) : Prop where
  nonempty : f ≠ []
  nodup : (f.map Prod.fst).Nodup
  inside : ∀ kv ∈ f, kv.1.1 < m ∧ kv.1.2 < n

theorem writeEntries_fold (f : BasisFn) (acc : Nat → Nat → Int) (hn : (f.map Prod.fst).Nodup) (i j : Nat) :
    f.foldl (fun acc kv => fun i j => if (i, j) = kv.1 then kv.2 else acc i j) acc i j =
      (f.lookup (i, j)).getD (acc i j) := by
  induction f generalizing acc with
  | nil => rfl
  | cons kv f ih =>
    obtain ⟨k, v⟩ := kv
    simp only [List.map_cons, List.nodup_cons] at hn
    rw [List.foldl_cons, ih _ hn.2]
    by_cases h : (i, j) = k
    · subst h
      have : f.lookup (i, j) = none := by
        rw [List.lookup_eq_none_iff]
        intro p hp
        simp only [bne_iff_ne, ne_eq, beq_eq_false_iff_ne]
        rintro h
        exact hn.1 (List.mem_map.mpr ⟨p, hp, h.symm⟩)
      simp [List.lookup, this]
    · have : ((i, j) == k) = false := by simpa using h
      simp [List.lookup, this, h]

theorem writeEntries_eq (f : BasisFn) (hn : (f.map Prod.fst).Nodup) (i j : Nat) :
    writeEntries f i j = (f.lookup (i, j)).getD 0 := writeEntries_fold f _ hn i j

theorem foldl_max_le (l : List Nat) (a : Nat) : a ≤ l.foldl max a ∧ ∀ x ∈ l, x ≤ l.foldl max a := by
  induction l generalizing a with
  | nil => simp
  | cons b l ih =>
    obtain ⟨h1, h2⟩ := ih (max a b)
    simp only [List.foldl_cons, List.mem_cons]
    refine ⟨by omega, ?_⟩
    rintro x (rfl | hx)
    · omega
    · exact h2 x hx

theorem foldl_max_lt (l : List Nat) (a b : Nat) (ha : a < b) (h : ∀ x ∈ l, x < b) : l.foldl max a < b := by
  induction l generalizing a with
  | nil => simpa
  | cons c l ih =>
    simp only [List.foldl_cons]
    apply ih
    · have := h c (by simp); omega
    · intro x hx; exact h x (by simp [hx])

theorem lookup_outside (f : BasisFn) (i j : Nat) (h : ∀ kv ∈ f, kv.1 ≠ (i, j)) : f.lookup (i, j) = none := by
  rw [List.lookup_eq_none_iff]
  intro p hp
  simp only [bne_iff_ne, ne_eq, beq_eq_false_iff_ne]
  exact fun e => h p hp e.symm

theorem sum_range_extend (g : Nat → Int) (a b : Nat) (h : a ≤ b) (hz : ∀ k, a ≤ k → k < b → g k = 0) :
    ((List.range a).map g).sum = ∑ k : Fin b, g k := by
  rw [← List.sum_ofFn, List.ofFn_eq_map]
  have e : (List.finRange b).map (fun k : Fin b => g k) = (List.range b).map g := by
    rw [← List.map_coe_finRange_eq_range, List.map_map]; rfl
  rw [e]
  obtain ⟨d, rfl⟩ := Nat.exists_eq_add_of_le h
  clear e h
  induction d with
  | zero => rfl
  | succ d ih =>
    rw [← Nat.add_assoc, List.range_succ, List.map_append, List.sum_append,
      ← ih (fun k h1 h2 => hz k h1 (by omega))]
    simp [hz (a + d) (by omega) (by omega)]

theorem mapM_axes (a : Arr) (axes : List Ax) (h : TwoWay axes) :
    ∃ l, axes.mapM a.axisSums = some l ∧ ∀ v, v ∈ l.flatten ↔ ∃ ax ∈ axes, ∃ s, a.axisSums ax = some s ∧ v ∈ s := by
  induction axes with
  | nil => exact ⟨[], rfl, by simp⟩
  | cons ax axes ih =>
    obtain ⟨l, h1, h2⟩ := ih (fun x hx => h x (by simp [hx]))
    have : ∃ s, a.axisSums ax = some s := by
      rcases h ax (by simp) with rfl | rfl | rfl <;> simp [Arr.axisSums]
    obtain ⟨s, hs⟩ := this
    refine ⟨s :: l, by simp [List.mapM_cons, hs, h1], ?_⟩
    intro v
    simp only [List.flatten_cons, List.mem_append, h2, List.mem_cons, exists_eq_or_imp, hs, Option.some.injEq,
      exists_eq_left']

theorem basisFunctionAdmissible_spec {m n : Nat} (constrained : List Ax) (hne : constrained ≠ []) (htw : TwoWay constrained)
    (fixed : List (Cell m n)) (junk : Int) (f : BasisFn) (hf : Fits m n f) :
    ∃ b, basisFunctionAdmissible m n constrained fixed junk f = some b ∧
      (b = true ↔ Admissible constrained fixed (fnTable m n f)) := by
  have hemp : f.isEmpty = false := by
    cases f with
    | nil => exact absurd rfl hf.nonempty
    | cons _ _ => rfl
  have hall : f.all (fun kv => decide (kv.1.1 < m) && decide (kv.1.2 < n)) = true := by
    rw [List.all_eq_true]; intro kv hkv; simpa using hf.inside kv hkv
  obtain ⟨kv0, hkv0⟩ := List.exists_mem_of_ne_nil f hf.nonempty
  have hm0 : 0 < m := by have := hf.inside kv0 hkv0; omega
  have hn0 : 0 < n := by have := hf.inside kv0 hkv0; omega
  generalize hR : maxIdx (f.map fun kv => kv.1.1) + 1 = R
  generalize hC : maxIdx (f.map fun kv => kv.1.2) + 1 = C
  have hRm : R ≤ m := by
    have := foldl_max_lt (f.map fun kv => kv.1.1) 0 m hm0 (by
      intro x hx
      obtain ⟨kv, h, rfl⟩ := List.mem_map.mp hx
      exact (hf.inside kv h).1)
    unfold maxIdx at hR; omega
  have hCn : C ≤ n := by
    have := foldl_max_lt (f.map fun kv => kv.1.2) 0 n hn0 (by
      intro x hx
      obtain ⟨kv, h, rfl⟩ := List.mem_map.mp hx
      exact (hf.inside kv h).2)
    unfold maxIdx at hC; omega
  have hRk : ∀ kv ∈ f, kv.1.1 < R := by
    intro kv h
    have := (foldl_max_le (f.map fun kv => kv.1.1) 0).2 kv.1.1 (List.mem_map.mpr ⟨kv, h, rfl⟩)
    unfold maxIdx at hR; omega
  have hCk : ∀ kv ∈ f, kv.1.2 < C := by
    intro kv h
    have := (foldl_max_le (f.map fun kv => kv.1.2) 0).2 kv.1.2 (List.mem_map.mpr ⟨kv, h, rfl⟩)
    unfold maxIdx at hC; omega
  have hw := writeEntries_eq f hf.nodup
  have hzR : ∀ i j, R ≤ i → writeEntries f i j = 0 := by
    intro i j h
    rw [hw, lookup_outside]
    · rfl
    · rintro kv hkv e; have := hRk kv hkv; rw [e] at this; simp only at this; omega
  have hzC : ∀ i j, C ≤ j → writeEntries f i j = 0 := by
    intro i j h
    rw [hw, lookup_outside]
    · rfl
    · rintro kv hkv e; have := hCk kv hkv; rw [e] at this; simp only at this; omega
  have htab : ∀ i j, fnTable m n f i j = writeEntries f i j := fun i j => (hw i j).symm
  let a : Arr := ⟨R, C, writeEntries f⟩
  have hrs : ∀ i : Nat, a.rowSum i = ∑ j : Fin n, writeEntries f i j := fun i =>
    sum_range_extend (fun j => writeEntries f i j) C n hCn (fun k h _ => hzC i k h)
  have hcs : ∀ j : Nat, a.colSum j = ∑ i : Fin m, writeEntries f i j := fun j =>
    sum_range_extend (fun i => writeEntries f i j) R m hRm (fun k h _ => hzR k j h)
  have hts : ((List.range R).map fun (i : Nat) => a.rowSum i).sum = total (fnTable m n f) := by
    rw [sum_range_extend (fun i => a.rowSum i) R m hRm]
    · simp only [total, htab, hrs]
    · intro k h _
      rw [hrs]; simp [hzR k _ h]
  obtain ⟨l, hl1, hl2⟩ := mapM_axes a constrained htw
  have hc0 : constrained.isEmpty = false := by
    cases constrained with
    | nil => exact absurd rfl hne
    | cons _ _ => rfl
  refine ⟨_, by
    simp only [basisFunctionAdmissible, fToArray, hemp, hR, hC, hall, Arr.constrainedSums, hc0, if_true,
      Bool.false_eq_true, if_false, Option.bind_eq_bind, Option.bind_some, Option.pure_def]
    rw [show (⟨R, C, writeEntries f⟩ : Arr) = a from rfl, hl1]
    rfl, ?_⟩
  simp only [Bool.and_eq_true, List.all_eq_true, decide_eq_true_eq, hl2]
  have hany : a.anyNonzero = true ↔ ∃ i j, fnTable m n f i j ≠ 0 := by
    simp only [Arr.anyNonzero, List.any_eq_true, List.mem_range, decide_eq_true_eq]
    constructor
    · rintro ⟨i, hi, j, hj, h⟩
      exact ⟨⟨i, lt_of_lt_of_le hi hRm⟩, ⟨j, lt_of_lt_of_le hj hCn⟩, by rw [htab]; exact h⟩
    · rintro ⟨i, j, h⟩
      rw [htab] at h
      refine ⟨i, ?_, j, ?_, h⟩
      · by_contra hlt; exact h (hzR _ _ (not_lt.mp hlt))
      · by_contra hlt; exact h (hzC _ _ (not_lt.mp hlt))
  rw [hany]
  constructor
  · rintro ⟨⟨h1, h2⟩, h3⟩
    refine ⟨h2, ?_, ?_, ?_, ?_⟩
    · intro hax i
      simp only [rowSum, htab]
      by_cases hi : (i : Nat) < R
      · rw [← hrs]
        exact h1 _ ⟨[1], hax, _, rfl, List.mem_map.mpr ⟨i, List.mem_range.mpr hi, rfl⟩⟩
      · simp [hzR _ _ (not_lt.mp hi)]
    · intro hax j
      simp only [colSum, htab]
      by_cases hj : (j : Nat) < C
      · rw [← hcs]
        exact h1 _ ⟨[0], hax, _, rfl, List.mem_map.mpr ⟨j, List.mem_range.mpr hj, rfl⟩⟩
      · simp [hzC _ _ (not_lt.mp hj)]
    · intro hax
      rw [← hts]
      exact h1 _ ⟨[0, 1], hax, _, rfl, by simp [a]⟩
    · intro i j hij
      rw [htab]; exact h3 (i, j) hij
  · intro h
    refine ⟨⟨?_, h.nonzero⟩, ?_⟩
    · rintro v ⟨ax, hax, s, hs, hv⟩
      rcases htw ax hax with rfl | rfl | rfl
      · simp [Arr.axisSums] at hs; subst hs
        obtain ⟨j, hj, rfl⟩ := List.mem_map.mp hv
        have hj' : j < n := lt_of_lt_of_le (List.mem_range.mp hj) hCn
        rw [hcs]
        have := h.cols hax ⟨j, hj'⟩
        simpa only [colSum, htab] using this
      · simp [Arr.axisSums] at hs; subst hs
        obtain ⟨i, hi, rfl⟩ := List.mem_map.mp hv
        have hi' : i < m := lt_of_lt_of_le (List.mem_range.mp hi) hRm
        rw [hrs]
        have := h.rows hax ⟨i, hi'⟩
        simpa only [rowSum, htab] using this
      · simp [Arr.axisSums] at hs; subst hs
        simp only [List.mem_singleton] at hv
        rw [hv]; exact hts.trans (h.grand hax)
    · rintro ⟨i, j⟩ hij
      rw [← htab]; exact h.cells i j hij

theorem updateMarkovBasis_spec {m n : Nat} (constrained : List Ax) (hne : constrained ≠ []) (htw : TwoWay constrained)
    (fixed : List (Cell m n)) (junk : Int) (fs : List BasisFn) (hfs : ∀ f ∈ fs, Fits m n f) :
    ∃ kept, updateMarkovBasis m n constrained fixed junk fs = some kept ∧ kept.Sublist fs ∧
      ∀ f ∈ fs, f ∈ kept ↔ Admissible constrained fixed (fnTable m n f) := by
  induction fs with
  | nil => exact ⟨[], rfl, List.Sublist.refl _, by simp⟩
  | cons f fs ih =>
    obtain ⟨kept, h1, h2, h3⟩ := ih (fun g hg => hfs g (by simp [hg]))
    obtain ⟨b, hb, hb2⟩ := basisFunctionAdmissible_spec constrained hne htw fixed junk f (hfs f (by simp))
    refine ⟨if b then f :: kept else kept, by simp [updateMarkovBasis, hb, h1], ?_, ?_⟩
    · cases b
      · simpa using h2.cons f
      · simpa using h2
    · intro g hg
      rcases List.mem_cons.mp hg with rfl | hg
      · cases b
        · simp only [Bool.false_eq_true, if_false, false_iff] at hb2 ⊢
          constructor
          · intro hk; exact (h3 g (h2.subset hk)).mp hk
          · intro ha; exact absurd ha hb2
        · simp only [if_true, true_iff] at hb2 ⊢
          simp [hb2]
      · cases b
        · simpa using h3 g hg
        · simp only [if_true, List.mem_cons, h3 g hg]
          constructor
          · rintro (rfl | h)
            · exact hb2.mp rfl
            · exact h
          · exact Or.inr

/-! ## C27 -/

/-- **C27.**  Updating a list of dictionaries that fit the table succeeds for any set of fixed cells; the result keeps the
order of the list, and a dictionary is kept exactly when it changes something but no constrained margin and no fixed
cell. -/
theorem C27_update_filters {m n : Nat} (constrained : List Ax) (hne : constrained ≠ []) (htw : TwoWay constrained)
    (fixed : List (Cell m n)) (junk : Int) (fs : List BasisFn) (hfs : ∀ f ∈ fs, Fits m n f) :
    ∃ kept, updateMarkovBasis m n constrained fixed junk fs = some kept ∧ kept.Sublist fs ∧
      ∀ f ∈ fs, f ∈ kept ↔ Admissible constrained fixed (fnTable m n f) :=
  updateMarkovBasis_spec constrained hne htw fixed junk fs hfs

/-- **C27, import.**  When some cell is fixed, importing a list of dictionaries that fit the table succeeds; the result keeps the
order of the list, and a dictionary is kept exactly when it changes something but no constrained margin and no fixed
cell. -/
theorem C27_import_filters {m n : Nat} (constrained : List Ax) (hne : constrained ≠ []) (htw : TwoWay constrained)
    (fixed : List (Cell m n)) (hfix : fixed ≠ []) (junk : Int) (fs : List BasisFn) (hfs : ∀ f ∈ fs, Fits m n f) :
    ∃ kept, adoptImported m n constrained fixed junk fs = some kept ∧ kept.Sublist fs ∧
      ∀ f ∈ fs, f ∈ kept ↔ Admissible constrained fixed (fnTable m n f) := by
  have : 0 < fixed.length := List.length_pos_iff.mpr hfix
  simp only [adoptImported, this, if_true]
  exact updateMarkovBasis_spec constrained hne htw fixed junk fs hfs

example : (∀ f ∈ ([[((0, 0), 1), ((0, 1), -1)], [((0, 1), 1), ((0, 2), -1)], [((1, 0), 1)]] : List BasisFn), Fits 2 3 f) ∧
    adoptImported 2 3 [[0, 1], [1]] [(0, 0)] 7
      [[((0, 0), 1), ((0, 1), -1)], [((0, 1), 1), ((0, 2), -1)], [((1, 0), 1)]] = some [[((0, 1), 1), ((0, 2), -1)]] := by
  constructor
  · intro f hf
    simp only [List.mem_cons, List.not_mem_nil, or_false] at hf
    rcases hf with rfl | rfl | rfl <;> exact ⟨by decide, by decide, by decide⟩
  · decide +kernel

/-- **C27 fails when no cell is fixed**: the import then adopts every dictionary unchecked, also one that breaks a
constrained margin. -/
theorem C27_unfiltered_without_fixed_cells :
    (∀ (m n : Nat) (constrained : List Ax) (junk : Int) (fs : List BasisFn),
      adoptImported m n constrained [] junk fs = some fs) ∧
    ∃ f : BasisFn, Fits 2 2 f ∧ adoptImported 2 2 [[0, 1], [1]] [] 0 [f] = some [f] ∧
      ¬ Admissible (m := 2) (n := 2) [[0, 1], [1]] [] (fnTable 2 2 f) := by
  refine ⟨fun _ _ _ _ _ => rfl, [((0, 0), 1)], ⟨by decide, by decide, by decide⟩, rfl, ?_⟩
  intro h
  have := h.rows (by decide) 0
  revert this
  unfold rowSum; decide +kernel

end GeNSIT
