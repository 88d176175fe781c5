import Verif.Outputs.Stack

/-!
# Selecting samples by the values of their coordinates

`Outputs.create_slicing_conditions`, `slice_coordinates` and `slice_coordinates_by_value` (`gensit/outputs.py:330-371`, `401-437`,
`1586-1603`). A condition is an expression such as `da.sigma.isin([0.1])` on the coordinates of the array `da`.
-/

namespace GeNSIT

/-- A condition: the coordinates it names (`re.findall(r'\bda\.(\w+)\b', ..)` without `isin`) and whether it holds of values of these. -/
structure CoordCond (C : Type) where
  names : List String
  holds : List C → Bool

/-- `create_slicing_conditions` (`outputs.py:1586-1603`). `sweepable` is `config.is_sweepable`, which raises for a name that is not in the
schema (`gensit/config.py:473-489`); the list comprehension asks about every name. -/
def slicingConditions {C : Type} (hasSweeps : Bool) (sweepable : String → Option Bool) : List (CoordCond C) → Option (List (CoordCond C))
  | [] => some []
  | c :: r =>
    if hasSweeps then
      match c.names.mapM sweepable with
      | none => none
      | some bs => (slicingConditions hasSweeps sweepable r).map fun l => if bs.all id then c :: l else l
    else some []

/-- The coordinates along a dimension. -/
def NamedArr.coords {C V : Type} (s : NamedArr C V) (d : String) : List C := ((s.dims.find? fun e => e.1 = d).map (·.2)).getD []

/-- The condition at a position. -/
def CoordCond.at {C V : Type} (c : CoordCond C) (s : NamedArr C V) (i : String → ℕ) : Bool :=
  match c.names.mapM fun d => (s.coords d)[i d]? with
  | some v => c.holds v
  | none => false

/-- The position that has `p` along each named dimension. -/
def posOf (names : List String) (p : List ℕ) (d : String) : ℕ := (((names.zip p).find? fun e => e.1 = d).map (·.2)).getD 0

/-- The positions along `d` that `where(.., drop = True)` keeps: those with the condition for some combination of the others. -/
def keptPos {C V : Type} (c : CoordCond C) (s : NamedArr C V) (d : String) : List ℕ :=
  (List.range (s.coords d).length).filter fun p =>
    (combos (c.names.map fun d' => if d' = d then [p] else List.range (s.coords d').length)).any fun q => c.at s (posOf c.names q)

/-- `da.where(condition, drop = True)` (`outputs.py:412-418`): along the dimensions of the condition only kept positions remain, and where the
condition is false the value is missing (`none`). -/
def whereDrop {C V : Type} (c : CoordCond C) (s : NamedArr C (Option V)) : NamedArr C (Option V) :=
  ⟨s.dims.map fun e => (e.1, if e.1 ∈ c.names then (keptPos c s e.1).filterMap (fun p => e.2[p]?) else e.2),
   fun i =>
    let i' := fun d => if d ∈ c.names then (keptPos c s d).getD (i d) 0 else i d
    if c.at s i' then s.val i' else none⟩

/-- The evaluation of the expression fails if the array lacks a coordinate, and `where` fails for a condition on none; such a condition is passed
over with a warning (`outputs.py:419-423`). -/
def applicable {C V : Type} (c : CoordCond C) (s : NamedArr C V) : Bool := decide (c.names ≠ []) && c.names.all fun d => d ∈ s.dims.map (·.1)

/-- `slice_coordinates_by_value` (`outputs.py:401-437`). `none`: nothing is left (`EmptyData`). -/
def sliceByValue {C V : Type} : List (CoordCond C) → NamedArr C (Option V) → Option (NamedArr C (Option V))
  | [], s => some s
  | c :: r, s =>
    if applicable c s then
      let s' := whereDrop c s
      if s'.dims.any (fun e => e.2.isEmpty) then none else sliceByValue r s'
    else sliceByValue r s

/-- `slice_coordinates` (`outputs.py:330-371`): `none` means the sample is dropped. `btt` is the setting `burnin_thinning_trimming` (`none`: not
there), `byIndex` the slicing by index of C49, which looks the setting up (`KeyError` if it is not there, caught, the sample dropped). -/
def sliceCoordinates {C V I : Type} (conds : List (CoordCond C)) (btt : Option (List I))
    (byIndex : List I → NamedArr C (Option V) → Option (NamedArr C (Option V))) (s : NamedArr C (Option V)) : Option (NamedArr C (Option V)) :=
  if conds ≠ [] ∨ btt.getD [] ≠ [] then
    match sliceByValue conds s with
    | none => none
    | some s' => match btt with
      | none => none
      | some l => byIndex l s'
  else some s

/-! ## Lemmas -/

theorem mem_combos {C : Type} (xs : List (List C)) (l : List C) : l ∈ combos xs ↔ List.Forall₂ (fun a x => a ∈ x) l xs := by
  induction xs generalizing l with
  | nil => simp [combos]
  | cons x xs ih =>
    simp only [combos, List.mem_flatMap, List.mem_map]
    constructor
    · rintro ⟨a, ha, t, ht, rfl⟩
      exact List.Forall₂.cons ha ((ih t).1 ht)
    · intro h
      cases h with
      | cons ha ht => exact ⟨_, ha, _, (ih _).2 ht, rfl⟩

theorem coords_of_mem {C V : Type} (s : NamedArr C V) (hnd : (s.dims.map (·.1)).Nodup) {d : String} {cs : List C} (h : (d, cs) ∈ s.dims) :
    s.coords d = cs := by
  unfold NamedArr.coords
  have : s.dims.find? (fun e => e.1 = d) = some (d, cs) := by
    generalize s.dims = l at h hnd
    induction l with
    | nil => simp at h
    | cons e l ih =>
      simp only [List.map_cons, List.nodup_cons] at hnd
      rw [List.find?_cons]
      rcases List.mem_cons.1 h with rfl | h
      · simp
      · have : e.1 ≠ d := fun hc => hnd.1 (List.mem_map.2 ⟨_, h, hc.symm⟩)
        simp only [this, decide_false]
        exact ih h hnd.2
  rw [this]
  rfl

theorem posOf_map (names : List String) (i : String → ℕ) (d : String) (hd : d ∈ names) : posOf names (names.map i) d = i d := by
  unfold posOf
  rw [find_zip_map names i d hd]
  rfl

theorem CoordCond.at_congr {C V : Type} (c : CoordCond C) (s : NamedArr C V) (i j : String → ℕ) (h : ∀ d ∈ c.names, i d = j d) :
    c.at s i = c.at s j := by
  unfold CoordCond.at
  have : (c.names.mapM fun d => (s.coords d)[i d]?) = c.names.mapM fun d => (s.coords d)[j d]? := by
    have : ∀ l : List String, (∀ d ∈ l, i d = j d) → (l.mapM fun d => (s.coords d)[i d]?) = l.mapM fun d => (s.coords d)[j d]? := by
      intro l
      induction l with
      | nil => intro _; rfl
      | cons a l ih =>
        intro hl
        rw [List.mapM_cons, List.mapM_cons, ih fun d hd => hl d (by simp [hd]), hl a (by simp)]
    exact this _ h
  rw [this]

theorem CoordCond.at_inside {C V : Type} (c : CoordCond C) (s : NamedArr C V) (i : String → ℕ) (h : c.at s i = true) :
    ∀ d ∈ c.names, i d < (s.coords d).length := by
  unfold CoordCond.at at h
  split at h
  · rename_i v hv
    have : ∀ (l : List String) (v : List C), (l.mapM fun d => (s.coords d)[i d]?) = some v → ∀ d ∈ l, i d < (s.coords d).length := by
      intro l
      induction l with
      | nil => intro _ _ d hd; simp at hd
      | cons a l ih =>
        intro v hv d hd
        rw [List.mapM_cons] at hv
        cases ha : (s.coords a)[i a]? with
        | none => rw [ha] at hv; simp at hv
        | some x =>
          rw [ha] at hv
          cases hl : l.mapM fun d => (s.coords d)[i d]? with
          | none => rw [hl] at hv; simp at hv
          | some y =>
            rcases List.mem_cons.1 hd with rfl | hd
            · by_contra hc
              rw [List.getElem?_eq_none (by omega)] at ha
              simp at ha
            · exact ih y hl d hd
    exact this _ _ hv
  · simp at h

/-- A position along a dimension is kept exactly if the condition holds somewhere with it. -/
theorem mem_keptPos {C V : Type} (c : CoordCond C) (s : NamedArr C V) (d : String) (hd : d ∈ c.names) (p : ℕ) :
    p ∈ keptPos c s d ↔ ∃ i : String → ℕ, i d = p ∧ c.at s i = true := by
  unfold keptPos
  rw [List.mem_filter, List.mem_range, List.any_eq_true]
  constructor
  · rintro ⟨_, q, hq, h⟩
    rw [mem_combos] at hq
    refine ⟨posOf c.names q, ?_, h⟩
    -- the entry of `q` for `d` is `p`
    have : ∀ (names : List String) (q : List ℕ), List.Forall₂ (fun a x => a ∈ x) q (names.map fun d' => if d' = d then [p] else
        List.range (s.coords d').length) → d ∈ names → posOf names q d = p := by
      intro names
      induction names with
      | nil => intro _ _ hd; simp at hd
      | cons a r ih =>
        intro q hq hd
        cases hq with
        | cons ha ht =>
          unfold posOf
          rw [List.zip_cons_cons, List.find?_cons]
          by_cases h : a = d
          · subst h
            simp only [if_true, List.mem_singleton] at ha
            simp [ha]
          · simp only [h, decide_false]
            rcases List.mem_cons.1 hd with rfl | hd
            · exact absurd rfl h
            · exact ih _ ht hd
    exact this _ _ hq hd
  · rintro ⟨i, rfl, h⟩
    have hin := c.at_inside s i h
    refine ⟨hin d hd, c.names.map i, ?_, ?_⟩
    · rw [mem_combos, List.forall₂_map_left_iff, List.forall₂_map_right_iff, List.forall₂_same]
      intro d' hd'
      split
      · rename_i e; rw [e]; simp
      · exact List.mem_range.2 (hin d' hd')
    · rw [← h]
      exact c.at_congr s _ _ fun d' hd' => posOf_map _ _ _ hd'

/-! ## C133 -/

/-- C133: what selecting by a condition keeps: along each dimension named by it exactly the coordinates at which it holds in some combination, in
order, everything along the other dimensions; a position that remains has the value it had if the condition holds there, and is missing
otherwise. -/
theorem C133_where {C V : Type} (c : CoordCond C) (s : NamedArr C (Option V)) (hnd : (s.dims.map (·.1)).Nodup) (hc : ∀ d ∈ c.names, d ∈ s.dims.map (·.1)) :
    (whereDrop c s).dims.map (·.1) = s.dims.map (·.1) ∧ ∃ from_ : String → List ℕ,
      (∀ d ∈ c.names, (from_ d).Pairwise (· < ·) ∧ ∀ p, p ∈ from_ d ↔ ∃ i : String → ℕ, i d = p ∧ c.at s i = true) ∧
      (∀ d, d ∉ c.names → from_ d = List.range (s.coords d).length) ∧
      (∀ d cs, (d, cs) ∈ s.dims → (d, (from_ d).filterMap fun p => cs[p]?) ∈ (whereDrop c s).dims) ∧
      ∀ i j : String → ℕ, (∀ e ∈ s.dims, (from_ e.1)[i e.1]? = some (j e.1)) → (∀ d, d ∉ s.dims.map (·.1) → i d = j d) →
        (whereDrop c s).val i = if c.at s j then s.val j else none := by
  refine ⟨?_, fun d => if d ∈ c.names then keptPos c s d else List.range (s.coords d).length, ?_, ?_, ?_, ?_⟩
  · simp [whereDrop, Function.comp_def]
  · intro d hd
    simp only [if_pos hd]
    refine ⟨?_, fun p => mem_keptPos c s d hd p⟩
    unfold keptPos
    exact List.pairwise_lt_range.filter _
  · intro d hd
    simp only [if_neg hd]
  · intro d cs hm
    refine List.mem_map.2 ⟨(d, cs), hm, ?_⟩
    by_cases hd : d ∈ c.names
    · simp only [if_pos hd]
    · simp only [if_neg hd]
      rw [coords_of_mem s hnd hm]
      congr 1
      have : ∀ l : List C, (List.range l.length).filterMap (fun p => l[p]?) = l := by
        intro l
        induction l with
        | nil => rfl
        | cons a l ih =>
          rw [List.length_cons, List.range_succ_eq_map, List.filterMap_cons]
          simp only [List.getElem?_cons_zero, List.filterMap_map]
          congr 1
      exact (this cs).symm
  · intro i j hij hout
    simp only [whereDrop]
    have hj : (fun d => if d ∈ c.names then (keptPos c s d).getD (i d) 0 else i d) = j := by
      funext d
      by_cases hd : d ∈ c.names
      · rw [if_pos hd]
        obtain ⟨e, he, rfl⟩ := List.mem_map.1 (hc d hd)
        have := hij e he
        beta_reduce at this
        rw [if_pos hd] at this
        rw [List.getD_eq_getElem?_getD, this]
        rfl
      · rw [if_neg hd]
        by_cases hm : d ∈ s.dims.map (·.1)
        · obtain ⟨e, he, rfl⟩ := List.mem_map.1 hm
          have := hij e he
          beta_reduce at this
          rw [if_neg hd] at this
          obtain ⟨_, h2⟩ := List.getElem?_eq_some_iff.1 this
          simpa using h2
        · exact hout d hm
    rw [hj]

/-- C133: a condition on one coordinate keeps exactly the coordinates that satisfy it and makes nothing missing. -/
theorem C133_single {C V : Type} (d : String) (P : C → Bool) (s : NamedArr C (Option V)) (hnd : (s.dims.map (·.1)).Nodup) (cs : List C)
    (hd : (d, cs) ∈ s.dims) (c : CoordCond C) (hcn : c.names = [d]) (hch : ∀ x, c.holds [x] = P x) :
    (d, cs.filter P) ∈ (whereDrop c s).dims ∧
      ∀ i j : String → ℕ, ((List.range cs.length).filter fun p => (cs[p]?).any P)[i d]? = some (j d) → (∀ d', d' ≠ d → i d' = j d') →
        (whereDrop c s).val i = s.val j := by
  have hco : s.coords d = cs := coords_of_mem s hnd hd
  have hat : ∀ i : String → ℕ, c.at s i = (cs[i d]?).any P := by
    intro i
    unfold CoordCond.at
    rw [hcn]
    simp only [List.mapM_cons, List.mapM_nil, hco]
    cases h : cs[i d]? with
    | none => rfl
    | some x => simp [hch]
  have hkept : keptPos c s d = (List.range cs.length).filter fun p => (cs[p]?).any P := by
    unfold keptPos
    rw [hco]
    apply List.filter_congr
    intro p _
    rw [hcn]
    simp only [List.map_cons, List.map_nil, if_true, combos, List.flatMap_cons, List.flatMap_nil, List.append_nil, List.any_cons, List.any_nil,
      Bool.or_false, hat]
    simp [posOf]
  refine ⟨?_, ?_⟩
  · refine List.mem_map.2 ⟨(d, cs), hd, ?_⟩
    simp only [hcn, List.mem_singleton, if_true, hkept]
    congr 1
    have : ∀ l : List C, ((List.range l.length).filter fun p => (l[p]?).any P).filterMap (fun p => l[p]?) = l.filter P := by
      intro l
      induction l with
      | nil => rfl
      | cons a l ih =>
        rw [List.length_cons, List.range_succ_eq_map, List.filter_cons, List.filter_map, List.filter_cons]
        have e1 : (List.map Nat.succ (List.filter ((fun p => ((a :: l)[p]?).any P) ∘ Nat.succ) (List.range l.length))).filterMap
            (fun p => (a :: l)[p]?) = l.filter P := by
          rw [List.filterMap_map, ← ih]
          congr 1
        by_cases hp : P a = true
        · simp only [List.getElem?_cons_zero, Option.any_some, hp, if_true]
          rw [List.filterMap_cons]
          simp only [List.getElem?_cons_zero]
          rw [e1]
        · have hp' : P a = false := by simpa using hp
          simp only [List.getElem?_cons_zero, Option.any_some, hp', Bool.false_eq_true, if_false]
          exact e1
    exact this cs
  · intro i j hij hout
    simp only [whereDrop]
    have hj : (fun d' => if d' ∈ c.names then (keptPos c s d').getD (i d') 0 else i d') = j := by
      funext d'
      rw [hcn]
      by_cases h : d' = d
      · subst h
        rw [if_pos (by simp), hkept, List.getD_eq_getElem?_getD, hij]
        rfl
      · rw [if_neg (by simpa using h)]
        exact hout d' h
    rw [hj, if_pos]
    rw [hat]
    have := List.mem_of_getElem? hij
    exact (List.mem_filter.1 this).2

/-- C133: a condition on two coordinates can make values missing that the array had at coordinates satisfying it elsewhere. -/
theorem C133_missing_false : ¬ ∀ (c : CoordCond ℕ) (s : NamedArr ℕ (Option ℕ)), (∀ d ∈ c.names, d ∈ s.dims.map (·.1)) →
    (∀ i, (s.val i).isSome) → ∀ i, (∀ e ∈ (whereDrop c s).dims, i e.1 < e.2.length) → ((whereDrop c s).val i).isSome := by
  intro h
  have := h ⟨["alpha", "sigma"], fun v => v = [1, 1] ∨ v = [2, 2]⟩ ⟨[("alpha", [1, 2]), ("sigma", [1, 2])], fun _ => some 0⟩ (by simp)
    (fun _ => rfl) (fun d => if d = "alpha" then 0 else 1) (by decide +kernel)
  revert this
  decide +kernel

/-- The file of one run has a single value of every swept setting. -/
def Spec.OneValue {C V : Type} (s : NamedArr C V) (value : String → C) (names : List String) : Prop := ∀ d ∈ names, (d, [value d]) ∈ s.dims

theorem whereDrop_one {C V : Type} (c : CoordCond C) (s : NamedArr C (Option V)) (hnd : (s.dims.map (·.1)).Nodup) (value : String → C)
    (h1 : Spec.OneValue s value c.names) (hne : c.names ≠ []) :
    (c.holds (c.names.map value) = true → (whereDrop c s).dims = s.dims ∧
      ∀ i, (∀ d ∈ c.names, i d = 0) → (whereDrop c s).val i = s.val i) ∧
    (c.holds (c.names.map value) = false → ∃ e ∈ (whereDrop c s).dims, e.2 = []) := by
  have hco : ∀ d ∈ c.names, s.coords d = [value d] := fun d hd => coords_of_mem s hnd (h1 d hd)
  have hat0 : ∀ i : String → ℕ, (∀ d ∈ c.names, i d = 0) → c.at s i = c.holds (c.names.map value) := by
    intro i hi
    unfold CoordCond.at
    have : (c.names.mapM fun d => (s.coords d)[i d]?) = some (c.names.map value) := by
      have hl : ∀ l : List String, (∀ d ∈ l, d ∈ c.names) → (l.mapM fun d => (s.coords d)[i d]?) = some (l.map value) := by
        intro l
        induction l with
        | nil => intro _; rfl
        | cons a l ih =>
          intro hl
          rw [List.mapM_cons, ih fun d hd => hl d (by simp [hd]), hco a (hl a (by simp)), hi a (hl a (by simp))]
          rfl
      exact hl _ fun _ h => h
    rw [this]
  have hzero : ∀ i : String → ℕ, c.at s i = true → ∀ d ∈ c.names, i d = 0 := by
    intro i hi d hd
    have := c.at_inside s i hi d hd
    rw [hco d hd] at this
    simpa using this
  have hmem : ∀ d ∈ c.names, ∀ p, p ∈ keptPos c s d ↔ p = 0 ∧ c.holds (c.names.map value) = true := by
    intro d hd p
    rw [mem_keptPos c s d hd]
    constructor
    · rintro ⟨i, rfl, hi⟩
      refine ⟨hzero i hi d hd, ?_⟩
      rw [← hat0 i (hzero i hi)]
      exact hi
    · rintro ⟨rfl, h⟩
      exact ⟨fun _ => 0, rfl, by rw [hat0 _ fun _ _ => rfl]; exact h⟩
  have hsub : ∀ d, (keptPos c s d).Pairwise (· < ·) := fun d => by unfold keptPos; exact List.pairwise_lt_range.filter _
  constructor
  · intro hh
    have hk : ∀ d ∈ c.names, keptPos c s d = [0] := by
      intro d hd
      have hm := hmem d hd
      have hs := hsub d
      cases hl : keptPos c s d with
      | nil => have := (hm 0).2 ⟨rfl, hh⟩; rw [hl] at this; simp at this
      | cons a l =>
        rw [hl] at hs hm
        have ha := ((hm a).1 (by simp)).1
        subst ha
        cases l with
        | nil => rfl
        | cons b l =>
          have hb := ((hm b).1 (by simp)).1
          simp only [List.pairwise_cons, List.mem_cons] at hs
          have := hs.1 b (Or.inl rfl)
          omega
    refine ⟨?_, ?_⟩
    · simp only [whereDrop]
      conv_rhs => rw [← List.map_id s.dims]
      apply List.map_congr_left
      intro e he
      by_cases hd : e.1 ∈ c.names
      · rw [if_pos hd, hk e.1 hd]
        have : e.2 = [value e.1] := by
          rw [← hco e.1 hd]
          exact (coords_of_mem s hnd he).symm
        rw [this]
        simp only [List.filterMap_cons, List.getElem?_cons_zero, List.filterMap_nil, id_eq]
        rw [← this]
      · rw [if_neg hd]; rfl
    · intro i hi
      simp only [whereDrop]
      have hj : (fun d => if d ∈ c.names then (keptPos c s d).getD (i d) 0 else i d) = i := by
        funext d
        by_cases hd : d ∈ c.names
        · rw [if_pos hd, hk d hd, hi d hd]; rfl
        · rw [if_neg hd]
      rw [hj, hat0 i hi, hh]
      rfl
  · intro hh
    obtain ⟨d, r, hdr⟩ := List.exists_cons_of_ne_nil hne
    have hd : d ∈ c.names := by rw [hdr]; simp
    refine ⟨(d, []), List.mem_map.2 ⟨(d, [value d]), h1 d hd, ?_⟩, rfl⟩
    have : keptPos c s d = [] := by
      rw [List.eq_nil_iff_forall_not_mem]
      intro p hp
      have := ((hmem d hd p).1 hp).2
      rw [hh] at this
      simp at this
    simp only [if_pos hd, this, List.filterMap_nil]

/-- C133: for the sample of one run, whose swept settings have one value each: it is dropped exactly if one of the conditions that name only
coordinates it has is false, and is otherwise unchanged. Conditions that name another coordinate are ignored. -/
theorem C133_run {C V : Type} (conds : List (CoordCond C)) (s : NamedArr C (Option V)) (hnd : (s.dims.map (·.1)).Nodup)
    (hpos : ∀ e ∈ s.dims, e.2 ≠ []) (value : String → C)
    (h1 : ∀ c ∈ conds, (∀ d ∈ c.names, d ∈ s.dims.map (·.1)) → c.names ≠ [] ∧ Spec.OneValue s value c.names) :
    ((∃ c ∈ conds, (∀ d ∈ c.names, d ∈ s.dims.map (·.1)) ∧ c.holds (c.names.map value) = false) → sliceByValue conds s = none) ∧
    ((∀ c ∈ conds, (∀ d ∈ c.names, d ∈ s.dims.map (·.1)) → c.holds (c.names.map value) = true) →
      ∃ s', sliceByValue conds s = some s' ∧ s'.dims = s.dims ∧
        ∀ i, (∀ e ∈ s.dims, i e.1 < e.2.length) → s'.val i = s.val i) := by
  induction conds generalizing s with
  | nil => exact ⟨by simp, fun _ => ⟨s, rfl, rfl, fun _ _ => rfl⟩⟩
  | cons c r ih =>
    simp only [sliceByValue]
    by_cases hc : ∀ d ∈ c.names, d ∈ s.dims.map (·.1)
    · obtain ⟨hne, hone⟩ := h1 c (by simp) hc
      have happ : applicable c s = true := by
        unfold applicable
        rw [Bool.and_eq_true]
        exact ⟨by simpa using hne, List.all_eq_true.2 fun d hd => by simpa using hc d hd⟩
      rw [if_pos happ]
      obtain ⟨w1, w2⟩ := whereDrop_one c s hnd value hone hne
      cases hh : c.holds (c.names.map value) with
      | false =>
        obtain ⟨e, he, hee⟩ := w2 hh
        have hany : (whereDrop c s).dims.any (fun e => e.2.isEmpty) = true := List.any_eq_true.2 ⟨e, he, by rw [hee]; rfl⟩
        rw [if_pos hany]
        refine ⟨fun _ => rfl, fun hall => ?_⟩
        have := hall c (by simp) hc
        rw [hh] at this
        simp at this
      | true =>
        obtain ⟨wd, wv⟩ := w1 hh
        have hany : ¬ (whereDrop c s).dims.any (fun e => e.2.isEmpty) = true := by
          rw [wd, List.any_eq_true]
          rintro ⟨e, he, h⟩
          exact hpos e he (by simpa using h)
        rw [if_neg hany]
        have ih' := ih (whereDrop c s) (by rw [wd]; exact hnd) (by rw [wd]; exact hpos) (by
          intro c' hc' hd'
          rw [wd] at hd'
          obtain ⟨a, b⟩ := h1 c' (by simp [hc']) hd'
          refine ⟨a, fun d hd => ?_⟩
          rw [wd]
          exact b d hd)
        rw [wd] at ih'
        refine ⟨?_, ?_⟩
        · rintro ⟨c', hm, k1, k2⟩
          rcases List.mem_cons.1 hm with rfl | hm
          · rw [hh] at k2; simp at k2
          · exact ih'.1 ⟨c', hm, k1, k2⟩
        · intro hall
          obtain ⟨s', e1, e2, e3⟩ := ih'.2 fun c' hc' => hall c' (by simp [hc'])
          refine ⟨s', e1, e2, fun i hi => ?_⟩
          rw [e3 i hi]
          apply wv
          intro d hd
          have := hi _ (hone d hd)
          simpa using this
    · have happ : ¬ applicable c s = true := by
        unfold applicable
        rw [Bool.and_eq_true]
        rintro ⟨_, h⟩
        apply hc
        intro d hd
        simpa using List.all_eq_true.1 h d hd
      rw [if_neg happ]
      have ih' := ih s hnd hpos fun c' hc' => h1 c' (by simp [hc'])
      refine ⟨?_, ?_⟩
      · rintro ⟨c', hm, k1, k2⟩
        rcases List.mem_cons.1 hm with rfl | hm
        · exact absurd k1 hc
        · exact ih'.1 ⟨c', hm, k1, k2⟩
      · intro hall
        exact ih'.2 fun c' hc' => hall c' (by simp [hc'])

/-- One run with `alpha = 5` and `sigma = 7`, two iterations. -/
def exOne : NamedArr ℕ (Option ℕ) := ⟨[("alpha", [5]), ("sigma", [7]), ("iter", [1, 2])], fun i => some (i "iter")⟩

example : (exOne.dims.map (·.1)).Nodup ∧ (∀ e ∈ exOne.dims, e.2 ≠ []) ∧
    Spec.OneValue exOne (fun d => if d = "alpha" then 5 else 7) ["alpha", "sigma"] ∧
    (sliceByValue [⟨["alpha"], fun v => v = [5]⟩, ⟨["sigma"], fun v => v = [8]⟩] exOne).isNone ∧
    (sliceByValue [⟨["alpha"], fun v => v = [5]⟩, ⟨["kappa"], fun v => v = [8]⟩] exOne).isSome := by
  refine ⟨by decide, by decide, ?_, by decide +kernel, by decide +kernel⟩
  intro d hd
  simp only [List.mem_cons, List.not_mem_nil, or_false] at hd
  rcases hd with rfl | rfl <;> simp [exOne]

/-- C133: which conditions are used: none without a sweep; with one, those naming only swept or sweepable settings; a name that is not in the
schema of configurations (for instance `iter`) makes opening the outputs fail. -/
theorem C133_conditions {C : Type} (sweepable : String → Option Bool) (conds : List (CoordCond C)) :
    slicingConditions false sweepable conds = some [] ∧
    ((∃ l, slicingConditions true sweepable conds = some l) ↔ ∀ c ∈ conds, ∀ d ∈ c.names, (sweepable d).isSome) ∧
    ∀ l, slicingConditions true sweepable conds = some l → ∀ c, c ∈ l ↔ c ∈ conds ∧ ∀ d ∈ c.names, sweepable d = some true := by
  have hmap : ∀ l : List String, (∃ bs, l.mapM sweepable = some bs) ↔ ∀ d ∈ l, (sweepable d).isSome := by
    intro l
    induction l with
    | nil => simp
    | cons a l ih =>
      rw [List.mapM_cons]
      cases ha : sweepable a with
      | none => simp [ha]
      | some b =>
        cases hl : l.mapM sweepable with
        | none =>
          have : ¬ ∀ d ∈ l, (sweepable d).isSome := by rw [← ih, hl]; simp
          simp only [Option.bind_eq_bind, Option.bind_some, Option.bind_none, reduceCtorEq, exists_false, List.mem_cons, forall_eq_or_imp, false_iff]
          exact fun h => this h.2
        | some bs =>
          have : ∀ d ∈ l, (sweepable d).isSome := ih.1 ⟨bs, hl⟩
          simp only [Option.bind_eq_bind, Option.bind_some, List.mem_cons, forall_eq_or_imp, ha, Option.isSome_some, true_and]
          exact ⟨fun _ => this, fun _ => ⟨_, rfl⟩⟩
  have hall : ∀ (l : List String) bs, l.mapM sweepable = some bs → (bs.all id = true ↔ ∀ d ∈ l, sweepable d = some true) := by
    intro l
    induction l with
    | nil => intro bs h; simp at h; subst h; simp
    | cons a l ih =>
      intro bs h
      rw [List.mapM_cons] at h
      cases ha : sweepable a with
      | none => rw [ha] at h; simp at h
      | some b =>
        rw [ha] at h
        cases hl : l.mapM sweepable with
        | none => rw [hl] at h; simp at h
        | some bs' =>
          rw [hl] at h
          simp at h
          subst h
          simp only [List.all_cons, id_eq, Bool.and_eq_true, List.mem_cons, forall_eq_or_imp, ha, Option.some.injEq]
          rw [ih bs' hl]
  refine ⟨by cases conds <;> simp [slicingConditions], ?_, ?_⟩
  · induction conds with
    | nil => simp [slicingConditions]
    | cons c r ih =>
      simp only [slicingConditions, if_true]
      cases hm : c.names.mapM sweepable with
      | none =>
        have : ¬ ∀ d ∈ c.names, (sweepable d).isSome := by rw [← hmap, hm]; simp
        simp only [reduceCtorEq, exists_false, List.mem_cons, forall_eq_or_imp, false_iff]
        exact fun h => this h.1
      | some bs =>
        have hc : ∀ d ∈ c.names, (sweepable d).isSome := (hmap _).1 ⟨bs, hm⟩
        simp only [List.mem_cons, forall_eq_or_imp]
        rw [← ih]
        constructor
        · rintro ⟨l, hl⟩
          refine ⟨hc, ?_⟩
          cases hr : slicingConditions true sweepable r with
          | none => rw [hr] at hl; simp at hl
          | some l' => exact ⟨l', rfl⟩
        · rintro ⟨_, l, hl⟩
          exact ⟨_, by rw [hl]; rfl⟩
  · induction conds with
    | nil => intro l h; simp [slicingConditions] at h; subst h; simp
    | cons c r ih =>
      intro l h x
      simp only [slicingConditions, if_true] at h
      cases hm : c.names.mapM sweepable with
      | none => rw [hm] at h; simp at h
      | some bs =>
        rw [hm] at h
        simp only at h
        cases hr : slicingConditions true sweepable r with
        | none => rw [hr] at h; simp at h
        | some l' =>
          rw [hr] at h
          simp only [Option.map_some, Option.some.injEq] at h
          have hx := ih l' hr x
          subst h
          by_cases hb : bs.all id = true
          · rw [if_pos hb, List.mem_cons, hx, List.mem_cons]
            have := (hall _ _ hm).1 hb
            constructor
            · rintro (rfl | h)
              · exact ⟨Or.inl rfl, this⟩
              · exact ⟨Or.inr h.1, h.2⟩
            · rintro ⟨rfl | h, h2⟩
              · exact Or.inl rfl
              · exact Or.inr ⟨h, h2⟩
          · rw [if_neg hb, hx, List.mem_cons]
            constructor
            · exact fun h => ⟨Or.inr h.1, h.2⟩
            · rintro ⟨rfl | h, h2⟩
              · exact absurd ((hall _ _ hm).2 h2) hb
              · exact ⟨h, h2⟩

/-- C133: so a condition that was asked for need not be applied, though the samples have the coordinate: the outputs of a single run, or a
setting that is stored as a coordinate but not sweepable. -/
theorem C133_applied_false : ¬ ∀ (hasSweeps : Bool) (sweepable : String → Option Bool) (conds l : List (CoordCond ℕ)) (s s' : NamedArr ℕ (Option ℕ)),
    slicingConditions hasSweeps sweepable conds = some l → sliceByValue l s = some s' →
    ∀ c ∈ conds, (∀ d ∈ c.names, d ∈ s.dims.map (·.1)) → ∀ i, (s'.val i).isSome → (∀ e ∈ s'.dims, i e.1 < e.2.length) → c.at s' i = true := by
  intro h
  have := h false (fun _ => some true) [⟨["alpha"], fun v => v = [6]⟩] [] exOne exOne rfl rfl ⟨["alpha"], fun v => v = [6]⟩ (by simp) (by decide)
    (fun _ => 0) rfl (by decide)
  revert this
  decide +kernel

/-- C133: if conditions are given but the setting for slices by index is not there, every sample is dropped. -/
theorem C133_needs_index_setting {C V I : Type} (conds : List (CoordCond C)) (hc : conds ≠ [])
    (byIndex : List I → NamedArr C (Option V) → Option (NamedArr C (Option V))) (s : NamedArr C (Option V)) :
    sliceCoordinates conds none byIndex s = none := by
  unfold sliceCoordinates
  rw [if_pos (Or.inl hc)]
  cases sliceByValue conds s <;> rfl

/-- C133: otherwise the sample is selected by value and then by index, and dropped if either leaves nothing. -/
theorem C133_order {C V I : Type} (conds : List (CoordCond C)) (btt : List I)
    (byIndex : List I → NamedArr C (Option V) → Option (NamedArr C (Option V))) (hid : ∀ s, byIndex [] s = some s) (s : NamedArr C (Option V)) :
    sliceCoordinates conds (some btt) byIndex s = (sliceByValue conds s).bind (byIndex btt) := by
  unfold sliceCoordinates
  by_cases h : conds ≠ [] ∨ (some btt).getD [] ≠ []
  · rw [if_pos h]
    cases sliceByValue conds s <;> rfl
  · rw [if_neg h]
    push Not at h
    obtain ⟨rfl, h2⟩ := h
    simp only [Option.getD_some] at h2
    subst h2
    simp [sliceByValue, hid]

end GeNSIT
