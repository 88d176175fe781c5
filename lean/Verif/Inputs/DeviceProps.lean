import Verif.Inputs.Device

/-!
# Moving the data to the device and back (C117), copies (C118), labelled arrays (C119)
-/

set_option linter.unusedSimpArgs false
set_option linter.unusedVariables false

namespace GeNSIT

/-! ## Specification -/

/-- The inputs that are moved to the device, each with the dimensions it has there. -/
def Spec.deviceInputs : List (String × List String) :=
  [("origin_demand", ["origin"]), ("destination_demand", ["destination"]), ("origin_attraction_ts", ["origin"]),
   ("destination_attraction_ts", ["destination", "time"]), ("cost_matrix", ["origin", "destination"]),
   ("total_cost_by_origin", ["origin"]), ("ground_truth_table", ["origin", "destination"]),
   ("adjacency_matrix", ["origin", "destination"])]

/-- The sizes are those of the named dimensions. -/
def Spec.Sizes (d : DimMap) (names : List String) (shape : List Nat) : Prop :=
  List.Forall₂ (fun k n => d.lookup k = some (some n)) names shape

/-! ## C117 -/

theorem dimSizes_spec {d : DimMap} {names : List String} {shape : List Nat} (h : dimSizes d names = .ok shape) :
    Spec.Sizes d names shape := by
  induction names generalizing shape with
  | nil => simp [dimSizes] at h; subst h; exact .nil
  | cons k r ih =>
    unfold dimSizes at h
    cases hk : d.lookup k with
    | none => rw [hk] at h; simp at h
    | some o =>
      rw [hk] at h
      cases o with
      | none => simp at h
      | some n =>
        simp only at h
        cases hr : dimSizes d r with
        | error e => rw [hr] at h; simp [Except.map] at h
        | ok sh =>
          rw [hr] at h
          simp only [Except.map, Except.ok.injEq] at h
          subst h
          exact .cons hk (ih hr)

theorem dimSizes_complete {d : DimMap} {names : List String} {shape : List Nat} (h : Spec.Sizes d names shape) :
    dimSizes d names = .ok shape := by
  induction h with
  | nil => rfl
  | cons hk _ ih => unfold dimSizes; rw [hk]; simp [ih, Except.map]

theorem device_field {name : String} {ds : List String} (h : (name, ds) ∈ Spec.deviceInputs) :
    name ∈ passFields.map (·.name) ∧ (fieldOf name).dims = ds ∧ ds ≠ [] := by
  simp only [Spec.deviceInputs, List.mem_cons, Prod.mk.injEq, List.not_mem_nil, or_false] at h
  rcases h with ⟨rfl, rfl⟩ | ⟨rfl, rfl⟩ | ⟨rfl, rfl⟩ | ⟨rfl, rfl⟩ | ⟨rfl, rfl⟩ | ⟨rfl, rfl⟩ | ⟨rfl, rfl⟩ | ⟨rfl, rfl⟩ <;> decide

/-- C117: after moving the data to the device, every input with dimensions is a tensor on the configured device, of the declared
shape, with the entries it had. -/
theorem C117_pass (s s' : DState) (h : passToDevice s = .ok s') (hd : s.inDevice = false) (name : String) (ds : List String)
    (hn : (name, ds) ∈ Spec.deviceInputs) (v : DVal) (hv : s.attrs.lookup name = some v) :
    ∃ shape, Spec.Sizes s.dims ds shape ∧ s'.attrs.lookup name = some ⟨.tensor s.gpu, ⟨shape, v.arr.vals⟩⟩ ∧
      shape.prod = v.arr.vals.length := by
  unfold passToDevice at h
  rw [if_neg (by simp [hd])] at h
  cases hc : castEach (fun n v => passStep s (fieldOf n) v) (passFields.map (·.name)) s.attrs with
  | error e => rw [hc] at h; simp at h
  | ok attrs =>
    rw [hc] at h
    simp only [Except.ok.injEq] at h
    subst h
    obtain ⟨hf, hds, hne⟩ := device_field hn
    obtain ⟨o, ho, hl⟩ := (castEach_spec passNames_nodup hc).2 name hf
    rw [hv] at ho
    unfold passStep at ho
    simp only at ho
    split at ho
    · simp at ho
    · rw [hds, if_neg hne] at ho
      cases hz : dimSizes s.dims ds with
      | error e => rw [hz] at ho; simp at ho
      | ok shape =>
        rw [hz] at ho
        unfold reshapeTo at ho
        simp only at ho
        split at ho
        · rename_i hp
          simp only [Except.map, Except.ok.injEq] at ho
          subst ho
          exact ⟨shape, dimSizes_spec hz, hl, hp⟩
        · simp [Except.map] at ho

/-- C117: the data can only be moved as NumPy arrays: an input that is already a tensor, on whichever device, or a labelled array
makes the move fail. -/
theorem C117_pass_numpy_only (s s' : DState) (h : passToDevice s = .ok s') (hd : s.inDevice = false) (name : String)
    (ds : List String) (hn : (name, ds) ∈ Spec.deviceInputs) (v : DVal) (hv : s.attrs.lookup name = some v) :
    v.kind = .numpy := by
  unfold passToDevice at h
  rw [if_neg (by simp [hd])] at h
  cases hc : castEach (fun n v => passStep s (fieldOf n) v) (passFields.map (·.name)) s.attrs with
  | error e => rw [hc] at h; simp at h
  | ok attrs =>
    obtain ⟨hf, _, _⟩ := device_field hn
    obtain ⟨o, ho, _⟩ := (castEach_spec passNames_nodup hc).2 name hf
    rw [hv] at ho
    unfold passStep at ho
    simp only at ho
    split at ho
    · simp at ho
    · rename_i hk
      simpa using hk

/-- C117: moving the data twice is the same as once. -/
theorem C117_pass_idempotent (s s' : DState) (h : passToDevice s = .ok s') : passToDevice s' = .ok s' := by
  have : s'.inDevice = true := by
    unfold passToDevice at h
    split at h
    · rename_i hd; simp only [Except.ok.injEq] at h; rw [← h]; exact hd
    · split at h
      · simp at h
      · simp only [Except.ok.injEq] at h; rw [← h]
  unfold passToDevice
  rw [if_pos this]

/-- C117 (partial: the six inputs that the code names): back from the device, each is a NumPy array with the entries it had
before. -/
theorem C117_roundtrip_partial (s s' s'' : DState) (hd : s.inDevice = false) (h : passToDevice s = .ok s')
    (h' : receiveFromDevice s' = .ok s'') (name : String)
    (hn : name ∈ ["origin_demand", "destination_attraction_ts", "origin_attraction_ts", "cost_matrix", "total_cost_by_origin",
      "ground_truth_table"]) (v : DVal) (hv : s.attrs.lookup name = some v) :
    ∃ w, s''.attrs.lookup name = some w ∧ w.kind = .numpy ∧ w.arr.vals = v.arr.vals := by
  have hds : ∃ ds, (name, ds) ∈ Spec.deviceInputs := by
    clear hv
    revert name
    intro name hn
    simp only [List.mem_cons, List.not_mem_nil, or_false] at hn
    rcases hn with rfl | rfl | rfl | rfl | rfl | rfl
    · exact ⟨["origin"], by decide⟩
    · exact ⟨["destination", "time"], by decide⟩
    · exact ⟨["origin"], by decide⟩
    · exact ⟨["origin", "destination"], by decide⟩
    · exact ⟨["origin"], by decide⟩
    · exact ⟨["origin", "destination"], by decide⟩
  obtain ⟨ds, hds⟩ := hds
  obtain ⟨shape, _, hl, _⟩ := C117_pass s s' h hd name ds hds v hv
  have hin : s'.inDevice = true := by
    unfold passToDevice at h
    rw [if_neg (by simp [hd])] at h
    split at h
    · simp at h
    · simp only [Except.ok.injEq] at h; rw [← h]
  unfold receiveFromDevice at h'
  rw [if_neg (by simp [hin])] at h'
  cases hc : castEach (receiveStep s') receivedNames s'.attrs with
  | error e => rw [hc] at h'; simp at h'
  | ok attrs =>
    rw [hc] at h'
    simp only [Except.ok.injEq] at h'
    subst h'
    obtain ⟨o, ho, hlo⟩ := (castEach_spec (by decide) hc).2 name hn
    rw [hl] at ho
    unfold receiveStep at ho
    simp only at ho
    split at ho
    · cases hz : tableSizes s'.dims (tableShape s'.dims) with
      | error e => rw [hz] at ho; simp at ho
      | ok sh =>
        rw [hz] at ho
        unfold reshapeTo at ho
        simp only at ho
        split at ho
        · simp only [Except.map, Except.ok.injEq] at ho
          subst ho
          exact ⟨_, hlo, rfl, rfl⟩
        · simp [Except.map] at ho
    · simp only [Except.ok.injEq] at ho
      subst ho
      exact ⟨_, hlo, rfl, rfl⟩

/-- A state as `read_data` leaves it: two origins, three destinations, one time step, and the given further attributes. -/
def exDState (more : List (String × DVal)) : DState :=
  { attrs := [("origin_demand", ⟨.numpy, ⟨[2], [10, 20]⟩⟩), ("destination_attraction_ts", ⟨.numpy, ⟨[3, 1], [1/5, 3/10, 1/2]⟩⟩),
      ("cost_matrix", ⟨.numpy, ⟨[2, 3], [1, 2, 3, 4, 5, 6]⟩⟩)] ++ more
    dims := [("origin", some 2), ("destination", some 3), ("time", some 1)]
    inDevice := false, gpu := true }

/-- Non-vacuity of C117. -/
example : ∃ s' s'', passToDevice (exDState []) = .ok s' ∧ receiveFromDevice s' = .ok s'' ∧ s'' = exDState [] ∧
    s'.attrs.lookup "cost_matrix" = some ⟨.tensor true, ⟨[2, 3], [1, 2, 3, 4, 5, 6]⟩⟩ :=
  ⟨{ exDState [] with
      attrs := [("origin_demand", ⟨.tensor true, ⟨[2], [10, 20]⟩⟩),
        ("destination_attraction_ts", ⟨.tensor true, ⟨[3, 1], [1/5, 3/10, 1/2]⟩⟩),
        ("cost_matrix", ⟨.tensor true, ⟨[2, 3], [1, 2, 3, 4, 5, 6]⟩⟩)]
      inDevice := true }, exDState [], by decide +kernel, by decide +kernel, rfl, by decide +kernel⟩

/-- C117: an input that `receive_from_device` does not name stays a tensor. -/
theorem C117_unnamed_stays (s s' : DState) (h : receiveFromDevice s = .ok s') (name : String)
    (hn : name ∈ ["destination_demand", "adjacency_matrix", "region_features", "origin_region_features",
      "destination_region_features"]) : s'.attrs.lookup name = s.attrs.lookup name := by
  unfold receiveFromDevice at h
  split at h
  · simp only [Except.ok.injEq] at h; rw [h]
  · cases hc : castEach (receiveStep s) receivedNames s.attrs with
    | error e => rw [hc] at h; simp at h
    | ok attrs =>
      rw [hc] at h
      simp only [Except.ok.injEq] at h
      subst h
      exact (castEach_spec (by decide) hc).1 name (by clear hc; revert name; decide)

/-- C117: so the data with an adjacency matrix do not come back as they were, and cannot be moved to the device again. -/
theorem C117_roundtrip_false :
    ¬ (∀ s s' s'' : DState, s.inDevice = false → passToDevice s = .ok s' → receiveFromDevice s' = .ok s'' →
        ∃ s''', passToDevice s'' = .ok s''') := by
  intro h
  have hp : passToDevice (exDState [("adjacency_matrix", ⟨.numpy, ⟨[2, 3], [1, 0, 0, 0, 1, 0]⟩⟩)]) = .ok
      { exDState [] with
        attrs := [("origin_demand", ⟨.tensor true, ⟨[2], [10, 20]⟩⟩),
          ("destination_attraction_ts", ⟨.tensor true, ⟨[3, 1], [1/5, 3/10, 1/2]⟩⟩),
          ("cost_matrix", ⟨.tensor true, ⟨[2, 3], [1, 2, 3, 4, 5, 6]⟩⟩),
          ("adjacency_matrix", ⟨.tensor true, ⟨[2, 3], [1, 0, 0, 0, 1, 0]⟩⟩)]
        inDevice := true } := by decide +kernel
  obtain ⟨s''', hs⟩ := h _ _ (exDState [("adjacency_matrix", ⟨.tensor true, ⟨[2, 3], [1, 0, 0, 0, 1, 0]⟩⟩)]) rfl hp
    (by decide +kernel)
  have : passToDevice (exDState [("adjacency_matrix", ⟨.tensor true, ⟨[2, 3], [1, 0, 0, 0, 1, 0]⟩⟩)]) = .error .typeError := by
    decide +kernel
  rw [this] at hs
  simp at hs

/-- C117: inputs without dimensions (the region features) are not moved: with a GPU configured they stay on the CPU. -/
theorem C117_features_not_moved (s s' : DState) (h : passToDevice s = .ok s') (hd : s.inDevice = false) (name : String)
    (hn : name ∈ ["region_features", "origin_region_features", "destination_region_features"]) (v : DVal)
    (hv : s.attrs.lookup name = some v) : s'.attrs.lookup name = some ⟨.tensor false, v.arr⟩ := by
  unfold passToDevice at h
  rw [if_neg (by simp [hd])] at h
  cases hc : castEach (fun n v => passStep s (fieldOf n) v) (passFields.map (·.name)) s.attrs with
  | error e => rw [hc] at h; simp at h
  | ok attrs =>
    rw [hc] at h
    simp only [Except.ok.injEq] at h
    subst h
    have hf : name ∈ passFields.map (·.name) ∧ (fieldOf name).dims = [] := by
      clear hv hc; revert name; decide
    obtain ⟨o, ho, hl⟩ := (castEach_spec passNames_nodup hc).2 name hf.1
    rw [hv] at ho
    unfold passStep at ho
    simp only at ho
    split at ho
    · simp at ho
    · rw [if_pos hf.2] at ho
      simp only [Except.ok.injEq] at ho
      subst ho
      exact hl

/-- Non-vacuity of the last theorem. -/
example : ∃ s', passToDevice (exDState [("region_features", ⟨.numpy, ⟨[1, 2], [7, 8]⟩⟩)]) = .ok s' ∧
    s'.attrs.lookup "region_features" = some ⟨.tensor false, ⟨[1, 2], [7, 8]⟩⟩ ∧
    s'.attrs.lookup "origin_demand" = some ⟨.tensor true, ⟨[2], [10, 20]⟩⟩ := by
  have hp : passToDevice (exDState [("region_features", ⟨.numpy, ⟨[1, 2], [7, 8]⟩⟩)]) = .ok
      { exDState [] with
        attrs := [("origin_demand", ⟨.tensor true, ⟨[2], [10, 20]⟩⟩),
          ("destination_attraction_ts", ⟨.tensor true, ⟨[3, 1], [1/5, 3/10, 1/2]⟩⟩),
          ("cost_matrix", ⟨.tensor true, ⟨[2, 3], [1, 2, 3, 4, 5, 6]⟩⟩),
          ("region_features", ⟨.tensor false, ⟨[1, 2], [7, 8]⟩⟩)]
        inDevice := true } := by decide +kernel
  exact ⟨_, hp, C117_features_not_moved _ _ hp rfl "region_features" (by decide) _ rfl, by decide +kernel⟩

/-- C117: a series of origin attractions with more than one time step cannot be moved to the device. -/
theorem C117_origin_series_rejected (s : DState) (hd : s.inDevice = false) (n t : Nat) (v : DVal)
    (hv : s.attrs.lookup "origin_attraction_ts" = some v) (ho : s.dims.lookup "origin" = some (some n))
    (hl : v.arr.vals.length = n * t) (hn : n ≠ 0) (ht : t ≠ 1) : ∀ s', passToDevice s ≠ .ok s' := by
  intro s' h
  obtain ⟨shape, hs, _, hp⟩ := C117_pass s s' h hd "origin_attraction_ts" ["origin"] (by decide) v hv
  cases hs with
  | cons h1 h2 =>
    cases h2
    rw [ho] at h1
    simp only [Option.some.injEq] at h1
    subst h1
    simp only [List.prod_cons, List.prod_nil, mul_one] at hp
    rw [hl] at hp
    exact ht (Nat.eq_of_mul_eq_mul_left (Nat.pos_of_ne_zero hn) (by rw [← hp, mul_one]))

/-- Non-vacuity: two origins, two time steps. -/
example : ∀ s', passToDevice (exDState [("origin_attraction_ts", ⟨.numpy, ⟨[2, 2], [1, 2, 3, 4]⟩⟩)]) ≠ .ok s' :=
  C117_origin_series_rejected _ rfl 2 2 ⟨.numpy, ⟨[2, 2], [1, 2, 3, 4]⟩⟩ (by decide +kernel) rfl rfl (by decide) (by decide)

/-! ## C118 -/

theorem lookup_filter_key {β : Type} (q : String → Bool) (L : List (String × β)) (k : String) :
    (L.filter fun p => q p.1).lookup k = if q k then L.lookup k else none := by
  induction L with
  | nil => simp
  | cons p r ih =>
    obtain ⟨k', v⟩ := p
    by_cases hk : k = k'
    · subst hk
      by_cases hq : q k = true
      · rw [List.filter_cons_of_pos (by simpa using hq)]; simp [hq]
      · rw [List.filter_cons_of_neg (by simpa using hq), ih]; simp [hq]
    · by_cases hq : q k' = true
      · rw [List.filter_cons_of_pos (by simpa using hq)]
        simp [List.lookup, beq_eq_false_iff_ne.mpr hk, ih]
      · rw [List.filter_cons_of_neg (by simpa using hq), ih]
        simp [List.lookup, beq_eq_false_iff_ne.mpr hk]

/-- C118: a copy restricted to some data sets holds, of the known inputs, exactly those asked for that exist, with their values; an
attribute that is no input is copied too. -/
theorem C118_copy {V : Type} (known : String → Bool) (datasets : List String) (hne : datasets ≠ [])
    (attrs : List (String × Option V)) (n : String) :
    (known n = true → ∀ v : V, (copyAttrs known datasets attrs).lookup n = some (some v) ↔
      n ∈ datasets ∧ attrs.lookup n = some (some v)) ∧
    (known n = true → n ∉ datasets → (copyAttrs known datasets attrs).lookup n = none) ∧
    (known n = false → (copyAttrs known datasets attrs).lookup n = attrs.lookup n) := by
  have key : (copyAttrs known datasets attrs).lookup n =
      if !(known n) || (known n && ((attrs.lookup n).bind id).isSome && (datasets.isEmpty || datasets.contains n)) then
        attrs.lookup n else none := by
    unfold copyAttrs
    exact lookup_filter_key (fun m => !(known m) || (known m && ((attrs.lookup m).bind id).isSome &&
      (datasets.isEmpty || datasets.contains m))) attrs n
  have he : datasets.isEmpty = false := by simpa using hne
  rw [key, he]
  refine ⟨fun hk v => ?_, fun hk hn => ?_, fun hk => ?_⟩
  · by_cases hn : n ∈ datasets
    · cases hl : attrs.lookup n with
      | none => simp
      | some o => cases o <;> simp [hk, hn]
    · simp [hk, hn]
  · simp [hk, hn]
  · simp [hk]

/-- Non-vacuity of C118. -/
example : copyAttrs (fun n => n == "dims" || n == "cost_matrix" || n == "origin_demand") ["dims", "cost_matrix", "other"]
    [("dims", some 1), ("origin_demand", some 2), ("cost_matrix", some 3), ("extra", some 4)] =
    [("dims", some 1), ("cost_matrix", some 3), ("extra", some 4)] := by decide +kernel

/-- C118: without a restriction everything that is not `None` is copied. -/
theorem C118_copy_all {V : Type} (known : String → Bool) (attrs : List (String × Option V)) (n : String) (v : V) :
    (copyAttrs known [] attrs).lookup n = some (some v) ↔ attrs.lookup n = some (some v) := by
  have key : (copyAttrs known [] attrs).lookup n =
      if !(known n) || (known n && ((attrs.lookup n).bind id).isSome && true) then attrs.lookup n else none := by
    unfold copyAttrs
    exact lookup_filter_key (fun m => !(known m) || (known m && ((attrs.lookup m).bind id).isSome && true)) attrs n
  rw [key]
  cases hk : known n
  · simp
  · cases hl : attrs.lookup n with
    | none => simp
    | some o => cases o <;> simp

/-- C118: a request for no data set at all is taken as a request for all of them. -/
theorem C118_empty_request_false :
    ¬ ∀ (known : String → Bool) (datasets : List String) (attrs : List (String × Option Nat)) (n : String),
      known n = true → n ∉ datasets → (copyAttrs known datasets attrs).lookup n = none := by
  intro h
  have := h (fun _ => true) [] [("cost_matrix", some 3)] "cost_matrix" rfl (by simp)
  revert this
  decide +kernel

/-! ## C119 -/

/-- The inputs that can be labelled, with their dimensions. -/
def Spec.labelledInputs : List (String × List String) :=
  [("destination_attraction_ts", ["destination", "time"]), ("ground_truth_table", ["origin", "destination"]),
   ("test_cells_mask", ["origin", "destination"]), ("test_validation_cells_mask", ["origin", "destination"]),
   ("validation_cells_mask", ["origin", "destination"]), ("zero_train_cells_mask", ["origin", "destination"]),
   ("train_cells_mask", ["origin", "destination"])]

theorem labelled_castable {name : String} {ds : List String} (h : (name, ds) ∈ Spec.labelledInputs) :
    name ∈ castable ∧ castDims name = ds := by
  simp only [Spec.labelledInputs, List.mem_cons, Prod.mk.injEq, List.not_mem_nil, or_false] at h
  rcases h with ⟨rfl, rfl⟩ | ⟨rfl, rfl⟩ | ⟨rfl, rfl⟩ | ⟨rfl, rfl⟩ | ⟨rfl, rfl⟩ | ⟨rfl, rfl⟩ | ⟨rfl, rfl⟩ <;> decide

theorem mem_castNames {name : String} {datasets : List String} (hc : name ∈ castable) :
    name ∈ castNames datasets ↔ datasets = [] ∨ name ∈ datasets := by
  unfold castNames
  by_cases h : datasets = []
  · simp [h, hc]
  · rw [if_neg h]; simp [h, hc]

/-- C119: labelling keeps every entry, and gives each axis the coordinates `1, 2, …, n` of its dimension; what is not asked for, and
what is labelled already, stays as it is. -/
theorem C119_to_xarray (s s' : DState) (datasets : List String) (h : castToXarray s datasets = .ok s') (name : String)
    (ds : List String) (hn : (name, ds) ∈ Spec.labelledInputs) (v : DVal) (hv : s.attrs.lookup name = some v) :
    ((datasets = [] ∨ name ∈ datasets) → (∀ c, v.kind ≠ .labelled c) →
      ∃ shape, Spec.Sizes s.dims ds shape ∧ v.arr.shape = shape ∧
        s'.attrs.lookup name = some ⟨.labelled (shape.map fun n => (List.range n).map (· + 1)), v.arr⟩) ∧
    ((∃ c, v.kind = .labelled c) → s'.attrs.lookup name = some v) ∧
    (¬ (datasets = [] ∨ name ∈ datasets) → s'.attrs.lookup name = some v) := by
  unfold castToXarray at h
  cases hc : castEach (toStep s) (castNames datasets) s.attrs with
  | error e => rw [hc] at h; simp [Except.map] at h
  | ok attrs =>
    rw [hc] at h
    simp only [Except.map, Except.ok.injEq] at h
    subst h
    obtain ⟨hcast, hdims⟩ := labelled_castable hn
    obtain ⟨s1, s2⟩ := castEach_spec (castNames_nodup datasets) hc
    refine ⟨fun ha hk => ?_, ?_, fun ha => ?_⟩
    · obtain ⟨o, ho, hl⟩ := s2 name ((mem_castNames hcast).mpr ha)
      rw [hv] at ho
      unfold toStep at ho
      simp only at ho
      split at ho
      · rename_i c hc'; exact absurd hc' (hk _)
      · simp at ho
      · rw [hdims] at ho
        cases hz : dimSizes s.dims ds with
        | error e => rw [hz] at ho; simp at ho
        | ok shape =>
          rw [hz] at ho
          simp only at ho
          split at ho
          · rename_i hsh
            simp only [Except.ok.injEq] at ho
            subst ho
            exact ⟨shape, dimSizes_spec hz, hsh, hl⟩
          · simp at ho
    · rintro ⟨c, hk⟩
      by_cases ha : datasets = [] ∨ name ∈ datasets
      · obtain ⟨o, ho, hl⟩ := s2 name ((mem_castNames hcast).mpr ha)
        rw [hv] at ho
        unfold toStep at ho
        simp only [hk] at ho
        simp only [Except.ok.injEq] at ho
        subst ho
        rw [hl, hv]; rfl
      · rw [s1 name (fun e => ha ((mem_castNames hcast).mp e)), hv]
    · rw [s1 name (fun e => ha ((mem_castNames hcast).mp e)), hv]

/-- C119: labelling succeeds whenever the arrays asked for are on the CPU and have the shape of the dimensions. -/
theorem C119_to_xarray_succeeds (s : DState) (datasets : List String)
    (hok : ∀ name ds v, (name, ds) ∈ Spec.labelledInputs → s.attrs.lookup name = some v →
      v.kind ≠ .tensor true ∧ Spec.Sizes s.dims ds v.arr.shape) : ∃ s', castToXarray s datasets = .ok s' := by
  have : ∃ a, castEach (toStep s) (castNames datasets) s.attrs = .ok a := by
    apply castEach_total (castNames_nodup datasets)
    intro name hn
    have hcast : name ∈ castable := by
      unfold castNames at hn; split at hn
      · exact hn
      · exact (List.mem_filter.mp hn).1
    have hin : (name, castDims name) ∈ Spec.labelledInputs := by
      clear hn hok; revert name; decide
    unfold toStep
    cases hv : s.attrs.lookup name with
    | none => exact ⟨none, rfl⟩
    | some v =>
      obtain ⟨hk, hs⟩ := hok name _ v hin hv
      simp only
      cases hkk : v.kind with
      | labelled c => exact ⟨none, rfl⟩
      | numpy => simp [dimSizes_complete hs]
      | tensor g =>
        cases g with
        | true => exact absurd hkk hk
        | false => simp [dimSizes_complete hs]
  obtain ⟨a, ha⟩ := this
  exact ⟨_, by unfold castToXarray; rw [ha]; rfl⟩

/-- C119: the order in which the data sets are gone through does not matter: any rearrangement succeeds too, with the same
attributes. -/
theorem C119_order_irrelevant (step : String → Option DVal → Except DError (Option DVal)) (L L' : List String)
    (hp : L.Perm L') (hnd : L.Nodup) (attrs a : List (String × DVal)) (h : castEach step L attrs = .ok a) :
    ∃ a', castEach step L' attrs = .ok a' ∧ ∀ n, a'.lookup n = a.lookup n := by
  obtain ⟨h1, h2⟩ := castEach_spec hnd h
  have hnd' : L'.Nodup := hp.nodup_iff.mp hnd
  obtain ⟨a', ha'⟩ := castEach_total hnd' (fun n hn => (h2 n (hp.mem_iff.mpr hn)).imp fun o ho => ho.1)
  refine ⟨a', ha', fun n => ?_⟩
  obtain ⟨g1, g2⟩ := castEach_spec hnd' ha'
  by_cases hn : n ∈ L
  · obtain ⟨o, ho, e⟩ := h2 n hn
    obtain ⟨o', ho', e'⟩ := g2 n (hp.mem_iff.mp hn)
    rw [ho] at ho'
    simp only [Except.ok.injEq] at ho'
    rw [e, e', ho']
  · rw [h1 n hn, g1 n (fun e => hn (hp.mem_iff.mpr e))]

theorem truncQ_int (z : Int) : truncQ (z : ℚ) = z := by
  unfold truncQ; split <;> simp

/-- C119: back from labelled arrays: succeeds exactly if every data set asked for is there, as a tensor or a labelled array; the
entries are rounded towards zero. -/
theorem C119_from_xarray (s : DState) (datasets : List String) :
    ((∃ s', castFromXarray s datasets = .ok s') ↔ ∀ name ds, (name, ds) ∈ Spec.labelledInputs →
      (datasets = [] ∨ name ∈ datasets) → ∃ v, s.attrs.lookup name = some v ∧ v.kind ≠ .numpy) ∧
    ∀ s', castFromXarray s datasets = .ok s' → ∀ name ds v c, (name, ds) ∈ Spec.labelledInputs →
      (datasets = [] ∨ name ∈ datasets) → s.attrs.lookup name = some v → v.kind = .labelled c →
      s'.attrs.lookup name = some ⟨.tensor s.gpu, ⟨v.arr.shape, v.arr.vals.map truncQ⟩⟩ := by
  constructor
  · constructor
    · rintro ⟨s', h⟩ name ds hn ha
      unfold castFromXarray at h
      cases hc : castEach (fromStep s) (castNames datasets) s.attrs with
      | error e => rw [hc] at h; simp [Except.map] at h
      | ok attrs =>
        obtain ⟨o, ho, _⟩ := (castEach_spec (castNames_nodup datasets) hc).2 name
          ((mem_castNames (labelled_castable hn).1).mpr ha)
        unfold fromStep at ho
        cases hv : s.attrs.lookup name with
        | none => rw [hv] at ho; simp at ho
        | some v =>
          rw [hv] at ho
          refine ⟨v, rfl, fun e => ?_⟩
          simp [e] at ho
    · intro hall
      have : ∃ a, castEach (fromStep s) (castNames datasets) s.attrs = .ok a := by
        apply castEach_total (castNames_nodup datasets)
        intro name hn
        have hcast : name ∈ castable := by
          unfold castNames at hn; split at hn
          · exact hn
          · exact (List.mem_filter.mp hn).1
        have hin : (name, castDims name) ∈ Spec.labelledInputs := by
          clear hn hall; revert name; decide
        obtain ⟨v, hv, hk⟩ := hall name _ hin ((mem_castNames hcast).mp hn)
        unfold fromStep
        rw [hv]
        cases hkk : v.kind with
        | numpy => exact absurd hkk hk
        | tensor g => simp [hkk]
        | labelled c => simp [hkk]
      obtain ⟨a, ha⟩ := this
      exact ⟨_, by unfold castFromXarray; rw [ha]; rfl⟩
  · intro s' h name ds v c hn ha hv hk
    unfold castFromXarray at h
    cases hc : castEach (fromStep s) (castNames datasets) s.attrs with
    | error e => rw [hc] at h; simp [Except.map] at h
    | ok attrs =>
      rw [hc] at h
      simp only [Except.map, Except.ok.injEq] at h
      subst h
      obtain ⟨o, ho, hl⟩ := (castEach_spec (castNames_nodup datasets) hc).2 name
        ((mem_castNames (labelled_castable hn).1).mpr ha)
      rw [hv] at ho
      unfold fromStep at ho
      simp only [hk, Except.ok.injEq] at ho
      subst ho
      exact hl

/-- C119 (partial: entries that are integers): labelling and back keeps the entries and the shape. -/
theorem C119_roundtrip_partial (s s' s'' : DState) (datasets : List String) (h : castToXarray s datasets = .ok s')
    (h' : castFromXarray s' datasets = .ok s'') (name : String) (ds : List String) (hn : (name, ds) ∈ Spec.labelledInputs)
    (ha : datasets = [] ∨ name ∈ datasets) (v : DVal) (hv : s.attrs.lookup name = some v) (hk : ∀ c, v.kind ≠ .labelled c)
    (hint : ∀ x ∈ v.arr.vals, ∃ z : Int, x = z) : ∃ w, s''.attrs.lookup name = some w ∧ w.arr = v.arr := by
  obtain ⟨shape, _, hsh, hl⟩ := (C119_to_xarray s s' datasets h name ds hn v hv).1 ha hk
  have := (C119_from_xarray s' datasets).2 s'' h' name ds _ _ hn ha hl rfl
  refine ⟨_, this, ?_⟩
  have e : v.arr.vals.map truncQ = v.arr.vals := by
    conv_rhs => rw [← List.map_id v.arr.vals]
    apply List.map_congr_left
    intro x hx
    obtain ⟨z, rfl⟩ := hint x hx
    exact truncQ_int z
  simp only [e]

/-- C119: the round trip loses the sizes of the destinations if they are not integers: shares become zero. -/
theorem C119_roundtrip_false :
    ¬ ∀ (s s' s'' : DState) (datasets : List String) (name : String) (v w : DVal), castToXarray s datasets = .ok s' →
      castFromXarray s' datasets = .ok s'' → name ∈ datasets → s.attrs.lookup name = some v → s''.attrs.lookup name = some w →
      w.arr = v.arr := by
  intro h
  have := h (exDState []) { exDState [] with
      attrs := [("origin_demand", ⟨.numpy, ⟨[2], [10, 20]⟩⟩),
        ("destination_attraction_ts", ⟨.labelled [[1, 2, 3], [1]], ⟨[3, 1], [1/5, 3/10, 1/2]⟩⟩),
        ("cost_matrix", ⟨.numpy, ⟨[2, 3], [1, 2, 3, 4, 5, 6]⟩⟩)] }
    { exDState [] with
      attrs := [("origin_demand", ⟨.numpy, ⟨[2], [10, 20]⟩⟩),
        ("destination_attraction_ts", ⟨.tensor true, ⟨[3, 1], [0, 0, 0]⟩⟩),
        ("cost_matrix", ⟨.numpy, ⟨[2, 3], [1, 2, 3, 4, 5, 6]⟩⟩)] }
    ["destination_attraction_ts"] "destination_attraction_ts" ⟨.numpy, ⟨[3, 1], [1/5, 3/10, 1/2]⟩⟩
    ⟨.tensor true, ⟨[3, 1], [0, 0, 0]⟩⟩ (by decide +kernel) (by decide +kernel) (by decide) (by decide +kernel) (by decide +kernel)
  revert this
  decide +kernel

/-- C119: asked without naming data sets, the conversion back raises for every object that lacks one of the five masks — in
particular for every object read from a configuration that does not list all five sets of cells. -/
theorem C119_default_request_false :
    ¬ ∀ s : DState, (∀ name v, s.attrs.lookup name = some v → ∃ c, v.kind = .labelled c) → ∃ s', castFromXarray s [] = .ok s' := by
  intro h
  obtain ⟨s', hs⟩ := h ⟨[("test_cells_mask", ⟨.labelled [[1], [1]], ⟨[1, 1], [1]⟩⟩)], [], false, false⟩ (by
    intro name v hv
    simp only [List.lookup] at hv
    split at hv
    · simp only [Option.some.injEq] at hv; subst hv; exact ⟨_, rfl⟩
    · simp at hv)
  have : castFromXarray ⟨[("test_cells_mask", ⟨.labelled [[1], [1]], ⟨[1, 1], [1]⟩⟩)], [], false, false⟩ [] =
      .error .missingData := by decide +kernel
  rw [this] at hs
  simp at hs

/-- Non-vacuity of C119: a table of counts, there and back. -/
example : ∃ s' s'', castToXarray (exDState [("ground_truth_table", ⟨.numpy, ⟨[2, 3], [1, 2, 3, 4, 5, 6]⟩⟩)])
      ["ground_truth_table", "no_input"] = .ok s' ∧
    castFromXarray s' ["ground_truth_table", "no_input"] = .ok s'' ∧
    s'.attrs.lookup "ground_truth_table" = some ⟨.labelled [[1, 2], [1, 2, 3]], ⟨[2, 3], [1, 2, 3, 4, 5, 6]⟩⟩ ∧
    s''.attrs.lookup "ground_truth_table" = some ⟨.tensor true, ⟨[2, 3], [1, 2, 3, 4, 5, 6]⟩⟩ :=
  ⟨exDState [("ground_truth_table", ⟨.labelled [[1, 2], [1, 2, 3]], ⟨[2, 3], [1, 2, 3, 4, 5, 6]⟩⟩)],
   exDState [("ground_truth_table", ⟨.tensor true, ⟨[2, 3], [1, 2, 3, 4, 5, 6]⟩⟩)],
   by decide +kernel, by decide +kernel, by decide +kernel, by decide +kernel⟩

end GeNSIT
