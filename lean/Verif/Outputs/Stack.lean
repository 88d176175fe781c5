import Mathlib.Data.List.Perm.Basic
import Mathlib.Data.List.Nodup
import Verif.Outputs.H5

/-!
# Stacking the swept dimensions of loaded samples

`Outputs.stack_sweep_dims` (`gensit/outputs.py:1634-1675`), applied to every loaded sample: the swept dimensions become one dimension `sweep`
whose coordinates are the combinations of their values; then the dimensions are put in the order iteration, dimensions of the schema, sweep.
-/

namespace GeNSIT

/-- A data array: dimensions with their coordinates, in order, and the value at each position (given by dimension, as xarray does). -/
structure NamedArr (C V : Type) where
  dims : List (String × List C)
  val : (String → ℕ) → V

/-- The keys of `CORE_COORDINATES_DTYPES` (`gensit/static/global_variables.py:528-539`). -/
def coreDims : List String := ["iter", "time", "origin", "destination", "seed", "alpha_range", "beta_range"]

/-- The row-major product of coordinate lists, as made by `DataArray.stack`. -/
def combos {C : Type} : List (List C) → List (List C)
  | [] => [[]]
  | x :: xs => x.flatMap fun a => (combos xs).map fun t => a :: t

/-- The position along each stacked dimension that belongs to position `k` of the stack. -/
def stackedPos (names : List String) (sizes : List ℕ) (k : ℕ) (d : String) : Option ℕ :=
  ((names.zip (((combos (sizes.map List.range))[k]?).getD [])).find? fun e => e.1 = d).map (·.2)

/-- The names of the swept dimensions of a sample (`outputs.py:1651`). -/
def sweptDims {C V : Type} (s : NamedArr C V) : List (String × List C) := s.dims.filter fun e => e.1 ∉ coreDims

/-- `sample_data.stack(sweep = sweep_dims)` (`outputs.py:1658-1660`): the new dimension comes last. -/
def stackArr {C V : Type} (s : NamedArr C V) : NamedArr (List C) V :=
  ⟨(s.dims.filter fun e => e.1 ∈ coreDims).map (fun e => (e.1, e.2.map fun c => [c])) ++ [("sweep", combos ((sweptDims s).map (·.2)))],
   fun i => s.val fun d => (stackedPos ((sweptDims s).map (·.1)) ((sweptDims s).map (·.2.length)) (i "sweep") d).getD (i d)⟩

/-- `transpose(*order)`: refused unless the order is a permutation of the dimensions. -/
def transposeArr {C V : Type} (order : List String) (s : NamedArr C V) : Option (NamedArr C V) :=
  if order.Perm (s.dims.map (·.1)) then
    some ⟨order.map fun d => (d, ((s.dims.find? fun e => e.1 = d).map (·.2)).getD []), s.val⟩
  else none

/-- `stack_sweep_dims` for one sample (`outputs.py:1641-1669`). Coordinates of dimensions that are not stacked are written as lists of length one
to have one type for all. `none`: the `ValueError` of `transpose`, or no entry in the schema. -/
def stackSweep {C V : Type} (name : String) (s : NamedArr C V) : Option (NamedArr (List C) V) :=
  match outSchema name with
  | none => none
  | some schema =>
    let iterDims := (s.dims.map (·.1)).filter fun d => d ∈ ["iter", "seed"]
    if sweptDims s ≠ [] then transposeArr (iterDims ++ schema.2 ++ ["sweep"]) (stackArr s)
    else transposeArr (iterDims ++ schema.2) ⟨s.dims.map fun e => (e.1, e.2.map fun c => [c]), s.val⟩

/-! ## Specification -/

/-- A position inside the array. -/
def Spec.Inside {C V : Type} (s : NamedArr C V) (i : String → ℕ) : Prop := ∀ e ∈ s.dims, i e.1 < e.2.length

/-- The coordinates at a position along the given dimensions. -/
def Spec.coordsAt {C : Type} (dims : List (String × List C)) (i : String → ℕ) : List (Option C) := dims.map fun e => e.2[i e.1]?

/-! ## Lemmas on products -/

theorem combos_length {C : Type} (xs : List (List C)) : (combos xs).length = (xs.map List.length).prod := by
  induction xs with
  | nil => rfl
  | cons x xs ih =>
    simp only [combos, List.length_flatMap, List.length_map, ih, List.map_cons, List.prod_cons]
    induction x with
    | nil => simp
    | cons a x ih2 =>
      simp only [List.map_cons, List.sum_cons, ih2, List.length_cons]
      ring

theorem flatMap_getElem? {α β : Type} (f : α → List β) (m : ℕ) (xs : List α) (hm : ∀ x ∈ xs, (f x).length = m) (i j : ℕ) (hj : j < m) :
    (xs.flatMap f)[i * m + j]? = (xs[i]?).bind fun x => (f x)[j]? := by
  induction xs generalizing i with
  | nil => simp
  | cons x xs ih =>
    have hx := hm x (by simp)
    cases i with
    | zero =>
      rw [List.flatMap_cons, List.getElem?_append_left (by omega)]
      simp
    | succ i =>
      rw [List.flatMap_cons, List.getElem?_append_right (by rw [hx, Nat.succ_mul]; omega)]
      have : (i + 1) * m + j - (f x).length = i * m + j := by rw [hx, Nat.succ_mul]; omega
      rw [this, ih (fun y hy => hm y (by simp [hy]))]
      simp

/-- Each choice of positions is at exactly one place of the product, the same for coordinates and for positions. -/
theorem combos_index {C : Type} (xs : List (List C)) (p : List ℕ) (hp : List.Forall₂ (fun n (x : List C) => n < x.length) p xs) :
    ∃ k, k < (combos xs).length ∧ (combos (xs.map fun x => List.range x.length))[k]? = some p ∧
      ∃ c, (combos xs)[k]? = some c ∧ c.map some = List.zipWith (fun n (x : List C) => x[n]?) p xs := by
  induction hp with
  | nil => exact ⟨0, by simp [combos], by simp [combos], [], by simp [combos], rfl⟩
  | @cons n x p xs hn hp ih =>
    obtain ⟨k, hk, h1, c, h2, h3⟩ := ih
    have hm : ∀ a ∈ x, ((combos xs).map fun t => a :: t).length = (combos xs).length := by simp
    have hlen : (combos (xs.map fun x => List.range x.length)).length = (combos xs).length := by
      rw [combos_length, combos_length]
      congr 1
      rw [List.map_map]
      apply List.map_congr_left
      intro y _
      simp
    have hm' : ∀ a ∈ List.range x.length, ((combos (xs.map fun x => List.range x.length)).map fun t => a :: t).length = (combos xs).length := by
      intro a _; simp [hlen]
    have hx : x[n]? = some x[n] := List.getElem?_eq_getElem hn
    refine ⟨n * (combos xs).length + k, ?_, ?_, x[n] :: c, ?_, ?_⟩
    · have : (combos (x :: xs)).length = x.length * (combos xs).length := by
        rw [combos_length, combos_length, List.map_cons, List.prod_cons]
      rw [this]
      calc n * (combos xs).length + k < n * (combos xs).length + (combos xs).length := by omega
        _ = (n + 1) * (combos xs).length := by ring
        _ ≤ x.length * (combos xs).length := Nat.mul_le_mul_right _ hn
    · simp only [List.map_cons, combos]
      rw [flatMap_getElem? _ _ _ hm' n k hk]
      simp [List.getElem?_range hn, h1]
    · simp only [combos]
      rw [flatMap_getElem? _ _ _ hm n k hk, hx]
      simp [h2]
    · simp only [List.map_cons, List.zipWith_cons_cons, h3, hx]

theorem find_zip_map (names : List String) (f : String → ℕ) (d : String) (hd : d ∈ names) :
    ((names.zip (names.map f)).find? fun e => e.1 = d).map (·.2) = some (f d) := by
  induction names with
  | nil => simp at hd
  | cons a r ih =>
    rw [List.map_cons, List.zip_cons_cons, List.find?_cons]
    by_cases h : a = d
    · subst h; simp
    · simp only [h, decide_false]
      rcases List.mem_cons.1 hd with rfl | hd
      · exact absurd rfl h
      · exact ih hd

theorem find_zip_none (names : List String) (l : List ℕ) (d : String) (hd : d ∉ names) :
    ((names.zip l).find? fun e => e.1 = d).map (·.2) = none := by
  rw [Option.map_eq_none_iff, List.find?_eq_none]
  intro e he
  have := (List.of_mem_zip (a := e.1) (b := e.2) he).1
  simp only [decide_eq_true_eq]
  rintro rfl
  exact hd this

/-! ## C131 -/

/-- C131: stacking succeeds exactly if the dimensions of the sample are, apart from swept ones, the iteration and seed ones it has and those of
its schema, each once. -/
theorem C131_succeeds_iff {C V : Type} (name : String) (s : NamedArr C V) (schema : Bool × List String) (hsc : outSchema name = some schema) :
    (∃ r, stackSweep name s = some r) ↔
      ((s.dims.map (·.1)).filter fun d => d ∈ coreDims).Perm ((s.dims.map (·.1)).filter (fun d => d ∈ ["iter", "seed"]) ++ schema.2) := by
  have hfm : (s.dims.filter fun e => e.1 ∈ coreDims).map (·.1) = (s.dims.map (·.1)).filter fun d => d ∈ coreDims := by
    rw [List.filter_map]; rfl
  unfold stackSweep
  rw [hsc]
  simp only
  by_cases hs : sweptDims s = []
  · rw [if_neg (by simpa using hs)]
    have hall : (s.dims.map (·.1)).filter (fun d => d ∈ coreDims) = s.dims.map (·.1) := by
      rw [List.filter_eq_self]
      intro d hd
      obtain ⟨e, he, rfl⟩ := List.mem_map.1 hd
      unfold sweptDims at hs
      rw [List.filter_eq_nil_iff] at hs
      simpa using hs e he
    rw [hall]
    unfold transposeArr
    have hmm : (List.map (fun e : String × List C => (e.1, e.2.map fun c => [c])) s.dims).map (·.1) = s.dims.map (·.1) := by
      rw [List.map_map]; rfl
    simp only [hmm]
    constructor
    · rintro ⟨r, hr⟩
      split at hr
      · rename_i hp; exact hp.symm
      · simp at hr
    · intro hp
      rw [if_pos hp.symm]
      exact ⟨_, rfl⟩
  · rw [if_pos hs]
    unfold transposeArr
    have hmm : (stackArr s).dims.map (·.1) = (s.dims.map (·.1)).filter (fun d => d ∈ coreDims) ++ ["sweep"] := by
      unfold stackArr
      simp only [List.map_append, List.map_map, List.map_cons, List.map_nil]
      rw [← hfm]
      rfl
    rw [hmm]
    constructor
    · rintro ⟨r, hr⟩
      split at hr
      · rename_i hp
        exact ((List.perm_append_right_iff _).1 hp).symm
      · simp at hr
    · intro hp
      rw [if_pos ((List.perm_append_right_iff _).2 hp.symm)]
      exact ⟨_, rfl⟩

/-- C131: the dimensions after stacking: iteration and seed (those present, in their order), those of the schema, and the stack of the swept
ones if there are any. -/
theorem C131_dims {C V : Type} (name : String) (s : NamedArr C V) (schema : Bool × List String) (hsc : outSchema name = some schema)
    (r : NamedArr (List C) V) (h : stackSweep name s = some r) :
    r.dims.map (·.1) = (s.dims.map (·.1)).filter (fun d => d ∈ ["iter", "seed"]) ++ schema.2 ++
      (if ∃ e ∈ s.dims, e.1 ∉ coreDims then ["sweep"] else []) := by
  unfold stackSweep at h
  rw [hsc] at h
  simp only at h
  have hiff : sweptDims s ≠ [] ↔ ∃ e ∈ s.dims, e.1 ∉ coreDims := by
    unfold sweptDims
    rw [Ne, List.filter_eq_nil_iff]
    push Not
    simp
  by_cases hs : sweptDims s ≠ []
  · rw [if_pos hs] at h
    rw [if_pos (hiff.1 hs)]
    unfold transposeArr at h
    split at h
    · simp only [Option.some.injEq] at h
      subst h
      rw [List.map_map]
      exact List.map_id _
    · simp at h
  · rw [if_neg hs] at h
    rw [if_neg fun hc => hs (hiff.2 hc)]
    unfold transposeArr at h
    split at h
    · simp only [Option.some.injEq] at h
      subst h
      rw [List.map_map, List.append_nil]
      exact List.map_id _
    · simp at h

/-- The coordinates along a dimension are kept by reordering. -/
theorem transposeArr_coords {C V : Type} {order : List String} {s r : NamedArr C V} (h : transposeArr order s = some r)
    (hnd : (s.dims.map (·.1)).Nodup) (d : String) (cs : List C) : (d, cs) ∈ r.dims ↔ (d, cs) ∈ s.dims := by
  unfold transposeArr at h
  split at h
  · rename_i hp
    simp only [Option.some.injEq] at h
    subst h
    have hfind : ∀ cs', (d, cs') ∈ s.dims → s.dims.find? (fun e => e.1 = d) = some (d, cs') := by
      intro cs' hm
      generalize s.dims = l at hm hnd
      induction l with
      | nil => simp at hm
      | cons e l ih =>
        simp only [List.map_cons, List.nodup_cons] at hnd
        rw [List.find?_cons]
        rcases List.mem_cons.1 hm with rfl | hm
        · simp
        · have : e.1 ≠ d := fun hc => hnd.1 (List.mem_map.2 ⟨_, hm, hc.symm⟩)
          simp only [this, decide_false]
          exact ih hm hnd.2
    constructor
    · intro hm
      obtain ⟨d', hd', e⟩ := List.mem_map.1 hm
      obtain ⟨rfl, rfl⟩ := Prod.mk.inj e
      obtain ⟨⟨d2, cs2⟩, hm2, rfl⟩ := List.mem_map.1 (hp.mem_iff.1 hd')
      rw [hfind _ hm2]
      exact hm2
    · intro hm
      refine List.mem_map.2 ⟨d, hp.mem_iff.2 (List.mem_map.2 ⟨_, hm, rfl⟩), ?_⟩
      rw [hfind _ hm]
      rfl
  · simp at h

theorem transposeArr_val {C V : Type} {order : List String} {s r : NamedArr C V} (h : transposeArr order s = some r) : r.val = s.val := by
  unfold transposeArr at h
  split at h
  · simp only [Option.some.injEq] at h
    subst h
    rfl
  · simp at h

/-- C131: nothing is lost or moved: every position of the sample has a place in the stack, different for positions that differ along a swept
dimension; there the coordinates are those of the swept dimensions at that position, and, with the positions along the other dimensions
unchanged, the value is the same. The stack has as many places as there are combinations. (The value of an array depends on the positions along
its dimensions only.) -/
theorem C131_values {C V : Type} (name : String) (s : NamedArr C V) (hnd : (s.dims.map (·.1)).Nodup) (hsw : "sweep" ∉ s.dims.map (·.1))
    (hv : ∀ i i' : String → ℕ, (∀ e ∈ s.dims, i e.1 = i' e.1) → s.val i = s.val i')
    (r : NamedArr (List C) V) (h : stackSweep name s = some r) (hswept : ∃ e ∈ s.dims, e.1 ∉ coreDims) :
    ∃ (coords : List (List C)) (place : (String → ℕ) → ℕ), ("sweep", coords) ∈ r.dims ∧
      coords.length = (((s.dims.filter fun e => e.1 ∉ coreDims)).map fun e => e.2.length).prod ∧
      (∀ i i', Spec.Inside s i → Spec.Inside s i' → place i = place i' → ∀ e ∈ s.dims, e.1 ∉ coreDims → i e.1 = i' e.1) ∧
      ∀ i, Spec.Inside s i → place i < coords.length ∧
        (coords[place i]?).map (fun c => c.map some) = some (Spec.coordsAt (s.dims.filter fun e => e.1 ∉ coreDims) i) ∧
        ∀ j : String → ℕ, j "sweep" = place i → (∀ e ∈ s.dims, e.1 ∈ coreDims → j e.1 = i e.1) → r.val j = s.val i := by
  classical
  have hiff : sweptDims s ≠ [] := by
    unfold sweptDims
    rw [Ne, List.filter_eq_nil_iff]
    push Not
    simpa using hswept
  unfold stackSweep at h
  split at h
  · simp at h
  · rename_i schema _
    simp only at h
    rw [if_pos hiff] at h
    have hndst : ((stackArr s).dims.map (·.1)).Nodup := by
      unfold stackArr
      simp only [List.map_append, List.map_map, List.map_cons, List.map_nil]
      rw [List.nodup_append]
      refine ⟨?_, by simp, ?_⟩
      · have : List.map ((fun x : String × List (List C) => x.1) ∘ fun e : String × List C => (e.1, e.2.map fun c => [c]))
            (s.dims.filter fun e => e.1 ∈ coreDims) = (s.dims.map (·.1)).filter fun d => d ∈ coreDims := by rw [List.filter_map]; rfl
        rw [this]
        exact hnd.filter _
      · intro a ha b hb hab
        simp only [List.mem_singleton] at hb
        subst hb
        subst hab
        obtain ⟨e, he, he2⟩ := List.mem_map.1 ha
        exact hsw (List.mem_map.2 ⟨e, (List.mem_filter.1 he).1, he2⟩)
    have hval := transposeArr_val h
    have hex : ∀ i, Spec.Inside s i → ∃ k, k < (combos ((sweptDims s).map (·.2))).length ∧
        (combos (((sweptDims s).map (·.2)).map fun x => List.range x.length))[k]? = some ((sweptDims s).map fun e => i e.1) ∧
        ∃ c, (combos ((sweptDims s).map (·.2)))[k]? = some c ∧
          c.map some = List.zipWith (fun n (x : List C) => x[n]?) ((sweptDims s).map fun e => i e.1) ((sweptDims s).map (·.2)) := by
      intro i hi
      apply combos_index
      rw [List.forall₂_map_left_iff, List.forall₂_map_right_iff, List.forall₂_same]
      intro e he
      exact hi e (List.mem_filter.1 he).1
    refine ⟨combos ((sweptDims s).map (·.2)), fun i => if hi : Spec.Inside s i then (hex i hi).choose else 0, ?_, ?_, ?_, ?_⟩
    · rw [transposeArr_coords h hndst]
      unfold stackArr
      simp
    · rw [combos_length, List.map_map]; rfl
    · intro i i' hi hi' he e hem hec
      simp only [dif_pos hi, dif_pos hi'] at he
      have h1 := (hex i hi).choose_spec.2.1
      have h2 := (hex i' hi').choose_spec.2.1
      rw [he, h2] at h1
      have h3 := Option.some.inj h1
      rw [List.map_inj_left] at h3
      exact (h3 e (List.mem_filter.2 ⟨hem, by simpa using hec⟩)).symm
    · intro i hi
      simp only [dif_pos hi]
      obtain ⟨hk, h1, c, h2, h3⟩ := (hex i hi).choose_spec
      refine ⟨hk, ?_, ?_⟩
      · rw [h2]
        simp only [Option.map_some, Option.some.injEq]
        rw [h3]
        unfold Spec.coordsAt
        rw [List.zipWith_map_left, List.zipWith_map_right]
        exact List.zipWith_self
      · intro j hj1 hj2
        rw [hval]
        unfold stackArr
        simp only
        apply hv
        intro e he
        unfold stackedPos
        rw [hj1]
        rw [show (sweptDims s).map (fun x => x.2.length) = ((sweptDims s).map (·.2)).map List.length from by rw [List.map_map]; rfl,
          show (((sweptDims s).map (·.2)).map List.length).map List.range = ((sweptDims s).map (·.2)).map fun x => List.range x.length from by
            rw [List.map_map]; rfl, h1, Option.getD_some]
        rw [show (sweptDims s).map (fun e => i e.1) = ((sweptDims s).map (·.1)).map i from by rw [List.map_map]; rfl]
        by_cases hd : e.1 ∈ (sweptDims s).map (·.1)
        · rw [find_zip_map _ _ _ hd, Option.getD_some]
        · rw [find_zip_none _ _ _ hd, Option.getD_none]
          refine hj2 e he ?_
          by_contra hc
          exact hd (List.mem_map.2 ⟨e, List.mem_filter.2 ⟨he, by simpa using hc⟩, rfl⟩)

/-- C131: a sample without swept dimensions is only reordered. -/
theorem C131_unswept {C V : Type} (name : String) (s : NamedArr C V) (hnd : (s.dims.map (·.1)).Nodup)
    (r : NamedArr (List C) V) (h : stackSweep name s = some r) (hs : ∀ e ∈ s.dims, e.1 ∈ coreDims) :
    r.val = s.val ∧ ∀ d cs, (d, cs) ∈ s.dims → (d, cs.map fun c => [c]) ∈ r.dims := by
  unfold stackSweep at h
  split at h
  · simp at h
  · simp only at h
    have : sweptDims s = [] := by
      unfold sweptDims
      rw [List.filter_eq_nil_iff]
      intro e he
      simpa using hs e he
    rw [if_neg (by simpa using this)] at h
    refine ⟨transposeArr_val h, fun d cs hm => ?_⟩
    rw [transposeArr_coords h (by rw [List.map_map]; exact hnd)]
    exact List.mem_map.2 ⟨_, hm, rfl⟩

/-- C131: other dimensions than the swept ones keep their coordinates. -/
theorem C131_other_coords {C V : Type} (name : String) (s : NamedArr C V) (hnd : (s.dims.map (·.1)).Nodup)
    (r : NamedArr (List C) V) (h : stackSweep name s = some r) (d : String) (cs : List C) (hd : d ∈ coreDims) (hm : (d, cs) ∈ s.dims) :
    (d, cs.map fun c => [c]) ∈ r.dims := by
  by_cases hall : ∀ e ∈ s.dims, e.1 ∈ coreDims
  · exact (C131_unswept name s hnd r h hall).2 d cs hm
  · have hiff : sweptDims s ≠ [] := by
      unfold sweptDims
      rw [Ne, List.filter_eq_nil_iff]
      push Not at hall ⊢
      simpa using hall
    unfold stackSweep at h
    split at h
    · simp at h
    · simp only at h
      rw [if_pos hiff] at h
      unfold transposeArr at h
      split at h
      · rename_i hp
        simp only [Option.some.injEq] at h
        subst h
        have hmem : (d, cs.map fun c => [c]) ∈ (stackArr s).dims := by
          unfold stackArr
          simp only [List.mem_append]
          exact Or.inl (List.mem_map.2 ⟨_, List.mem_filter.2 ⟨hm, by simpa using hd⟩, rfl⟩)
        refine List.mem_map.2 ⟨d, hp.mem_iff.2 (List.mem_map.2 ⟨_, hmem, rfl⟩), ?_⟩
        have hdsw : d ≠ "sweep" := by rintro rfl; revert hd; decide
        have hfind : (stackArr s).dims.find? (fun e => e.1 = d) = some (d, cs.map fun c => [c]) := by
          unfold stackArr
          simp only [List.find?_append]
          have : List.find? (fun e : String × List (List C) => decide (e.1 = d))
              ((s.dims.filter fun e => e.1 ∈ coreDims).map fun e => (e.1, e.2.map fun c => [c])) = some (d, cs.map fun c => [c]) := by
            have hm' : (d, cs) ∈ s.dims.filter fun e => e.1 ∈ coreDims := List.mem_filter.2 ⟨hm, by simpa using hd⟩
            have hnd' : ((s.dims.filter fun e => e.1 ∈ coreDims).map (·.1)).Nodup := by
              have e1 : (s.dims.filter fun e => e.1 ∈ coreDims).map (·.1) = (s.dims.map (·.1)).filter fun d => d ∈ coreDims := by
                rw [List.filter_map]; rfl
              rw [e1]
              exact hnd.filter _
            generalize (s.dims.filter fun e => e.1 ∈ coreDims) = l at hm' hnd'
            induction l with
            | nil => simp at hm'
            | cons e l ih =>
              simp only [List.map_cons, List.nodup_cons] at hnd'
              rw [List.map_cons, List.find?_cons]
              rcases List.mem_cons.1 hm' with rfl | hm'
              · simp
              · have : e.1 ≠ d := fun hc => hnd'.1 (List.mem_map.2 ⟨_, hm', hc.symm⟩)
                simp only [this, decide_false]
                exact ih hm' hnd'.2
          rw [this]
          rfl
        rw [hfind]
        rfl
      · simp at h

/-- Two swept settings and two iterations of a table of one row. -/
def exArr : NamedArr ℕ ℕ :=
  ⟨[("alpha", [5, 6]), ("sigma", [7, 8, 9]), ("iter", [1, 2]), ("origin", [1]), ("destination", [1, 2])],
   fun i => i "alpha" + 10 * i "sigma" + 100 * i "iter" + 1000 * i "destination"⟩

example : (stackSweep "table" exArr).map (fun r => (r.dims.map (·.1), (r.dims.find? fun e => e.1 = "sweep").map (·.2),
      r.val fun d => if d = "sweep" then 4 else 1)) =
    some (["iter", "origin", "destination", "sweep"], some [[5, 7], [5, 8], [5, 9], [6, 7], [6, 8], [6, 9]], 1111) := by decide +kernel

example : (exArr.dims.map (·.1)).Nodup ∧ "sweep" ∉ exArr.dims.map (·.1) ∧ (∃ e ∈ exArr.dims, e.1 ∉ coreDims) ∧
    (∀ i i' : String → ℕ, (∀ e ∈ exArr.dims, i e.1 = i' e.1) → exArr.val i = exArr.val i') ∧ (stackSweep "table" exArr).isSome := by
  refine ⟨by decide, by decide, ⟨("alpha", [5, 6]), by simp [exArr], by decide⟩, ?_, by decide +kernel⟩
  intro i i' h
  simp [exArr] at h ⊢
  obtain ⟨h1, h2, h3, _, h5⟩ := h
  rw [h1, h2, h3, h5]

/-- A sample that lacks a dimension of its schema cannot be stacked. -/
example : stackSweep "table" (⟨[("alpha", [5]), ("iter", [1]), ("origin", [1])], fun _ => 0⟩ : NamedArr ℕ ℕ) = none := by decide +kernel

end GeNSIT
