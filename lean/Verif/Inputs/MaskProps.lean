import Verif.Inputs.Props

/-!
# The masks of cells (C115), margins and single cells (C116)
-/

set_option linter.unusedSimpArgs false
set_option linter.unusedVariables false

namespace GeNSIT

/-! ## C115 -/

/-- The order in which the dimensions are declared is the usual one; in particular if none are declared. -/
def Spec.usualOrder (cfg : InCfg) : Prop := (cfg.dims.getD defaultDims).map (·.1) = ["origin", "destination", "time"]

/-- `mask` is the Boolean `n × m` array that is true exactly at the cells with the property `P`. -/
def Spec.IsMask (n m : Nat) (P : Nat → Nat → Prop) (mask : List (List Bool)) : Prop :=
  mask.length = n ∧ (∀ r ∈ mask, r.length = m) ∧
    ∀ i j, i < n → j < m → ∃ row, mask[i]? = some row ∧ ∃ b, row[j]? = some b ∧ (b = true ↔ P i j)

theorem isMask_of {n m : Nat} {mask : Mask} {P : Nat → Nat → Prop} (hs : MaskShape n m mask)
    (h : ∀ i j, i < n → j < m → (maskAt mask i j = true ↔ P i j)) : Spec.IsMask n m P mask := by
  refine ⟨hs.1, hs.2, fun i j hi hj => ?_⟩
  have hi' : i < mask.length := by rw [hs.1]; exact hi
  have hr := hs.2 _ (List.getElem_mem hi')
  have hj' : j < mask[i].length := by rw [hr]; exact hj
  refine ⟨mask[i], List.getElem?_eq_getElem hi', mask[i][j], List.getElem?_eq_getElem hj', ?_⟩
  rw [← h i j hi hj]
  unfold maskAt
  rw [List.getElem?_eq_getElem hi']
  simp [List.getElem?_eq_getElem hj']

theorem mem_rows_listed {k : Nat} {vals : List ℚ} (hl : vals.length = 2 * k) (i j : Nat) :
    [some i, some j] ∈ (arrRows k 2 vals).map (fun r => r.map cellIndex) ↔ Spec.listed k vals i j := by
  unfold arrRows Spec.listed
  simp only [List.map_map, List.mem_map, List.mem_range, Function.comp_apply]
  constructor
  · rintro ⟨r, hr, e⟩
    have h0 : 2 * r < vals.length := by omega
    have h1 : 2 * r + 1 < vals.length := by omega
    have : (vals.drop (r * 2)).take 2 = [vals[2 * r], vals[2 * r + 1]] := by
      rw [show r * 2 = 2 * r by ring, List.drop_eq_getElem_cons h0, List.drop_eq_getElem_cons h1, List.take_succ_cons,
        List.take_succ_cons, List.take_zero]
    rw [this] at e
    simp only [List.map_cons, List.map_nil, List.cons.injEq, and_true] at e
    refine ⟨r, hr, ?_, ?_⟩
    · rw [List.getElem?_eq_getElem h0, cellIndex_some.mp e.1]
    · rw [List.getElem?_eq_getElem h1, cellIndex_some.mp e.2]
  · rintro ⟨r, hr, e1, e2⟩
    refine ⟨r, hr, ?_⟩
    obtain ⟨h0, e1⟩ := List.getElem?_eq_some_iff.mp e1
    obtain ⟨h1, e2⟩ := List.getElem?_eq_some_iff.mp e2
    have : (vals.drop (r * 2)).take 2 = [vals[2 * r], vals[2 * r + 1]] := by
      rw [show r * 2 = 2 * r by ring, List.drop_eq_getElem_cons h0, List.drop_eq_getElem_cons h1, List.take_succ_cons,
        List.take_succ_cons, List.take_zero]
    rw [this, e1, e2]
    simp [cellIndex_natCast]

theorem rows_length_two {k : Nat} {vals : List ℚ} (hl : vals.length = 2 * k) :
    ∀ c ∈ (arrRows k 2 vals).map (fun r => r.map cellIndex), c.length = 2 := by
  intro c hc
  simp only [arrRows, List.map_map, List.mem_map, List.mem_range, Function.comp_apply] at hc
  obtain ⟨r, hr, rfl⟩ := hc
  simp
  omega

/-- The dimensions after a reading with the usual order. -/
theorem dims_usual {files : InFiles} {cellFile : String → Bool} {cfg : InCfg} {d : InData}
    (h : readData files cellFile cfg = .ok d) (hu : Spec.usualOrder cfg) :
    ∃ x y z, d.dims = [("origin", x), ("destination", y), ("time", z)] := by
  obtain ⟨_, st₀, st, w, W, dk, h1, h2, _, _, _, _, _, _, _, e2, _⟩ := readData_ok h
  have hk := readFields_keys h1 (by
    intro f hf p hp
    rw [show (InState.mk [] (cfg.dims.getD defaultDims)).dims = cfg.dims.getD defaultDims from rfl, hu]
    exact inputSchema_dims f hf p hp)
  rw [show (InState.mk [] (cfg.dims.getD defaultDims)).dims = cfg.dims.getD defaultDims from rfl, hu] at hk
  rw [← (defaultTestCells_attrs h2).1, ← e2] at hk
  match hd : d.dims, hk with
  | [(a, x), (b, y), (c, z)], hk =>
    simp only [List.map_cons, List.map_nil, List.cons.injEq, and_true] at hk
    obtain ⟨rfl, rfl, rfl⟩ := hk
    exact ⟨x, y, z, rfl⟩

/-- The mask of a list of cells, in terms of `create_mask`. -/
theorem mask_created {files : InFiles} {cellFile : String → Bool} {cfg : InCfg} {d : InData}
    (h : readData files cellFile cfg = .ok d) (hu : Spec.usualOrder cfg) {name : String} (hn : name ∈ Spec.cellInputs)
    {a : InArr} (ha : d.attrs.lookup name = some a) :
    ∃ n m mask, d.dims.lookup "origin" = some (some n) ∧ d.dims.lookup "destination" = some (some m) ∧
      d.masks.lookup (name ++ "_mask") = some mask ∧ createMask n m a = .ok mask := by
  obtain ⟨x, y, z, hd⟩ := dims_usual h hu
  obtain ⟨_, st₀, st, w, W, dk, _, _, _, _, _, h6, _, _, e1, e2, _⟩ := readData_ok h
  have hf : ∃ f ∈ validationSchema, f.name = name := by clear ha; revert name; decide
  obtain ⟨f, hf, rfl⟩ := hf
  have hm := createCellMasks_lookup h6 hf (by decide)
  unfold maskOf at hm
  rw [← e1, ha, ← e2, hd] at hm
  simp only [tableShape, show (List.filter (fun p : String × Option Nat => decide (p.1 ≠ "time"))
      [("origin", x), ("destination", y), ("time", z)]) = [("origin", x), ("destination", y)] from rfl, List.map_cons,
      List.map_nil] at hm
  cases x with
  | none => simp at hm
  | some n =>
  cases y with
  | none => simp at hm
  | some m =>
    simp only at hm
    cases hc : createMask n m a with
    | error e => rw [hc] at hm; simp [Except.map] at hm
    | ok mask =>
      rw [hc] at hm
      simp only [Except.map, Except.ok.injEq] at hm
      exact ⟨n, m, mask, by rw [hd]; rfl, by rw [hd]; rfl, hm.symm, hc⟩

/-- C115: the mask made from a list of cells is true exactly at the listed cells, and every listed cell lies in the table. -/
theorem C115_mask (files : InFiles) (cellFile : String → Bool) (cfg : InCfg) (d : InData)
    (h : readData files cellFile cfg = .ok d) (hu : Spec.usualOrder cfg) (name : String) (hn : name ∈ Spec.cellInputs)
    (a : InArr) (ha : d.attrs.lookup name = some a) (k : Nat) (hs : a.shape = [k, 2]) (hl : a.vals.length = 2 * k) :
    ∃ n m mask, d.dims.lookup "origin" = some (some n) ∧ d.dims.lookup "destination" = some (some m) ∧
      d.masks.lookup (name ++ "_mask") = some mask ∧ Spec.IsMask n m (Spec.listed k a.vals) mask ∧
      ∀ i j, Spec.listed k a.vals i j → i < n ∧ j < m := by
  obtain ⟨n, m, mask, h1, h2, h3, h4⟩ := mask_created h hu hn ha
  refine ⟨n, m, mask, h1, h2, h3, ?_⟩
  unfold createMask at h4
  rw [hs] at h4
  simp only at h4
  obtain ⟨p1, p2, p3⟩ := markCells_pairs (maskShape_blank n m false) (rows_length_two hl) h4
  refine ⟨isMask_of p1 fun i j _ _ => ?_, fun i j hij => ?_⟩
  · rw [p2, maskAt_blank, Bool.false_or, decide_eq_true_eq, mem_rows_listed hl]
  · obtain ⟨i', j', hi, hj, e⟩ := p3 _ ((mem_rows_listed hl i j).mpr hij)
    simp only [List.cons.injEq, Option.some.injEq, and_true] at e
    rw [e.1, e.2]; exact ⟨hi, hj⟩

/-- Non-vacuity of C115: the training cells of the example. -/
example : ∃ mask, exData.masks.lookup "train_cells_mask" = some mask ∧
    Spec.IsMask 2 3 (fun i j => (i, j) = (0, 1) ∨ (i, j) = (1, 2)) mask := by
  obtain ⟨n, m, mask, h1, h2, h3, h4, _⟩ := C115_mask exFiles (fun _ => false) exCfg exData exData_read rfl "train_cells" (by decide)
    ⟨[2, 2], [0, 1, 1, 2]⟩ (by decide +kernel) 2 rfl rfl
  obtain rfl : n = 2 := by
    have : exData.dims.lookup "origin" = some (some 2) := rfl
    rw [this] at h1; simpa using h1.symm
  obtain rfl : m = 3 := by
    have : exData.dims.lookup "destination" = some (some 3) := rfl
    rw [this] at h2; simpa using h2.symm
  refine ⟨mask, h3, h4.1, h4.2.1, fun i j hi hj => ?_⟩
  obtain ⟨row, e1, b, e2, e3⟩ := h4.2.2 i j hi hj
  refine ⟨row, e1, b, e2, e3.trans ?_⟩
  unfold Spec.listed
  constructor
  · rintro ⟨r, hr, e, e'⟩
    match r, hr with
    | 0, _ =>
      left
      simp at e e'
      rw [Prod.mk.injEq]
      exact ⟨by exact_mod_cast e.symm, by exact_mod_cast e'.symm⟩
    | 1, _ =>
      right
      simp at e e'
      rw [Prod.mk.injEq]
      exact ⟨by exact_mod_cast e.symm, by exact_mod_cast e'.symm⟩
  · rintro (e | e) <;> (rw [Prod.mk.injEq] at e; obtain ⟨rfl, rfl⟩ := e)
    · exact ⟨0, by omega, by simp, by simp⟩
    · exact ⟨1, by omega, by simp, by simp⟩

/-- C115: without a file of test cells every cell of the table is a test cell. -/
theorem C115_default_test (files : InFiles) (cellFile : String → Bool) (cfg : InCfg) (d : InData)
    (h : readData files cellFile cfg = .ok d) (hu : Spec.usualOrder cfg) (hn : Spec.fileOf files cfg "test_cells" = none) :
    ∃ n m mask, d.dims.lookup "origin" = some (some n) ∧ d.dims.lookup "destination" = some (some m) ∧
      d.masks.lookup "test_cells_mask" = some mask ∧ Spec.IsMask n m (fun _ _ => True) mask := by
  obtain ⟨_, st₀, st, w, W, dk, h1, h2, _, _, h5, _, _, _, e1, e2, _⟩ := readData_ok h
  -- the dimensions at the time the cells are listed are the final ones
  have key : ∃ c, d.attrs.lookup "test_cells" = some c ∧ allTableCells d.dims = .ok c := by
    obtain ⟨hd, _, hcase⟩ := defaultTestCells_attrs h2
    have hdims : d.dims = st₀.dims := by rw [e2, hd]
    rcases hcase with ⟨a, ha, hst⟩ | ⟨_, c, hc, hat⟩
    · -- configured, but without a file
      have split : inputSchema = trainSchema ++ validationSchema ++
          [{ name := "region_geometries", axes := [], dims := [], positive := false, validation := false, readable := true }] := rfl
      have app : ∀ (fs gs : List Field) (s s' : InState), readFields files cfg.data (fs ++ gs) s = .ok s' →
          ∃ t, readFields files cfg.data fs s = .ok t ∧ readFields files cfg.data gs t = .ok s' := by
        intro fs
        induction fs with
        | nil => intro gs s s' h; exact ⟨s, rfl, h⟩
        | cons f r ih =>
          intro gs s s' h
          rw [List.cons_append] at h
          rw [readFields] at h
          rw [readFields]
          cases hf : readField files cfg.data f s with
          | error e => rw [hf] at h; simp at h
          | ok t => rw [hf] at h; simp only at h ⊢; exact ih gs t s' h
      have keep : ∀ (fs : List Field) (s s' : InState), (∀ f ∈ fs, f.axes.zip f.dims = []) →
          readFields files cfg.data fs s = .ok s' → s'.dims = s.dims := by
        intro fs
        induction fs with
        | nil => intro s s' _ h; simp [readFields] at h; rw [h]
        | cons f r ih =>
          intro s s' hz h
          unfold readFields at h
          cases hf : readField files cfg.data f s with
          | error e => rw [hf] at h; simp at h
          | ok t =>
            rw [hf] at h
            rw [ih t s' (fun g hg => hz g (by simp [hg])) h]
            rcases readField_attrs hf with ⟨_, rfl⟩ | ⟨src, a, _, _, _, _, _, hu⟩ | ⟨src, c, _, _, _, _, hd, _⟩
            · rfl
            · rw [hz f (by simp)] at hu; simpa [updateDims] using hu.symm
            · exact hd
      have split2 : inputSchema = trainSchema ++ ({ name := "test_cells", axes := [], dims := [], positive := true, validation := true, readable := true } ::
          (["test_validation_cells", "validation_cells", "zero_train_cells", "train_cells"].map
            fun n => { name := n, axes := [], dims := [], positive := true, validation := true, readable := true }) ++
          [{ name := "region_geometries", axes := [], dims := [], positive := false, validation := false, readable := true }]) := rfl
      rw [split2] at h1
      obtain ⟨t, ht1, ht2⟩ := app _ _ _ _ h1
      have hno : t.attrs.lookup "test_cells" = none := by
        rw [readFields_other ht1 (by decide)]; rfl
      rw [List.cons_append] at ht2
      unfold readFields at ht2
      cases hf : readField files cfg.data { name := "test_cells", axes := [], dims := [], positive := true, validation := true, readable := true } t with
      | error e => rw [hf] at ht2; simp at ht2
      | ok t' =>
        rw [hf] at ht2
        simp only at ht2
        have hlast : st₀.attrs.lookup "test_cells" = t'.attrs.lookup "test_cells" := readFields_other ht2 (by decide)
        have hdl : st₀.dims = t'.dims := keep _ _ _ (by decide) ht2
        rcases readField_attrs hf with ⟨_, rfl⟩ | ⟨src, a', hl, ho, _⟩ | ⟨src, c, hl, ho, _, hat, hdd, hall, _⟩
        · rw [hno] at hlast; rw [hlast] at ha; simp at ha
        · unfold Spec.fileOf at hn; rw [hl] at hn; simp only [Option.bind_some] at hn; rw [ho] at hn; simp at hn
        · refine ⟨c, ?_, ?_⟩
          · rw [e1, hst, hlast, hat, lookup_inSet, if_pos rfl]
          · rw [hdims, hdl, hdd]; exact hall rfl
    · exact ⟨c, by rw [e1, hat], by rw [hdims]; exact hc⟩
  obtain ⟨c, hc1, hc2⟩ := key
  obtain ⟨n, m, mask, g1, g2, g3, g4⟩ := mask_created h hu (name := "test_cells") (by decide) hc1
  refine ⟨n, m, mask, g1, g2, g3, ?_⟩
  unfold allTableCells dimOf at hc2
  rw [g1, g2] at hc2
  simp only [bind, Except.bind, pure, Except.pure, Except.ok.injEq] at hc2
  rw [← hc2, createMask_all] at g4
  simp only [Except.ok.injEq] at g4
  subst g4
  refine isMask_of (maskShape_blank n m true) fun i j hi hj => ?_
  unfold maskAt
  simp [List.getElem?_replicate, hi, hj]

/-- C115: the mask of another configured list of cells whose file does not exist is false everywhere. -/
theorem C115_missing_file (files : InFiles) (cellFile : String → Bool) (cfg : InCfg) (d : InData)
    (h : readData files cellFile cfg = .ok d) (hu : Spec.usualOrder cfg) (name : String) (hn : name ∈ Spec.cellInputs)
    (ht : name ≠ "test_cells") (src : Source) (hc : cfg.data.lookup name = some src) (hf : openFile files src.file = none) :
    ∃ n m mask, d.dims.lookup "origin" = some (some n) ∧ d.dims.lookup "destination" = some (some m) ∧
      d.masks.lookup (name ++ "_mask") = some mask ∧ Spec.IsMask n m (fun _ _ => False) mask := by
  have ha : d.attrs.lookup name = some ⟨[0], []⟩ := by
    obtain ⟨_, st₀, st, w, W, dk, h1, h2, _, _, h5, _, _, _, e1, e2, _⟩ := readData_ok h
    obtain ⟨f, hfm, rfl, hv⟩ := cell_field hn
    obtain ⟨s, s', hs, _, e'⟩ := readFields_step h1 hfm inputSchema_nodup
    rw [e1, (defaultTestCells_attrs h2).2.1 _ ht, ← e']
    rcases readField_attrs hs with ⟨hl, _⟩ | ⟨src', a', hl, ho, _⟩ | ⟨src', c, hl, ho, _, hat, _, _, hcc⟩
    · rw [hc] at hl; simp at hl
    · rw [hc] at hl; simp only [Option.some.injEq] at hl; rw [← hl, hf] at ho; simp at ho
    · rw [hat, lookup_inSet, if_pos rfl, hcc ht]
  obtain ⟨n, m, mask, g1, g2, g3, g4⟩ := mask_created h hu hn ha
  refine ⟨n, m, mask, g1, g2, g3, ?_⟩
  unfold createMask at g4
  simp only [Except.ok.injEq] at g4
  subst g4
  exact isMask_of (maskShape_blank n m false) fun i j _ _ => by simp [maskAt_blank]

/-- Non-vacuity of `C115_default_test` and `C115_missing_file`. -/
example : (∃ n m mask, exData.dims.lookup "origin" = some (some n) ∧ exData.dims.lookup "destination" = some (some m) ∧
      exData.masks.lookup "test_cells_mask" = some mask ∧ Spec.IsMask n m (fun _ _ => True) mask) ∧
    (∃ n m mask, exData.dims.lookup "origin" = some (some n) ∧ exData.dims.lookup "destination" = some (some m) ∧
      exData.masks.lookup "validation_cells_mask" = some mask ∧ Spec.IsMask n m (fun _ _ => False) mask) :=
  ⟨C115_default_test exFiles (fun _ => false) exCfg exData exData_read rfl rfl,
   C115_missing_file exFiles (fun _ => false) exCfg exData exData_read rfl "validation_cells" (by decide) (by decide)
     (.dict (some "no_such_file.txt")) (by decide) (by decide)⟩

/-- C115: without an assumption on the order in which the dimensions are declared, masks of the wrong shape are made silently. -/
theorem C115_declared_order_false :
    ¬ ∀ (files : InFiles) (cellFile : String → Bool) (cfg : InCfg) (d : InData) (mask : List (List Bool)) (n : Nat),
      readData files cellFile cfg = .ok d → d.masks.lookup "test_cells_mask" = some mask →
      d.dims.lookup "origin" = some (some n) → mask.length = n := by
  intro h
  have := h exFiles (fun _ => false)
    { exCfg with
        data := [("cost_matrix", .name "cost.txt"), ("origin_demand", .name "demand.txt"),
          ("destination_attraction_ts", .name "attraction.txt"), ("test_cells", .name "corner.txt")]
        dims := some [("destination", some 3), ("origin", some 2), ("time", some 1)] }
    { exData with
      attrs := [("origin_demand", ⟨[2], [10, 20]⟩), ("destination_attraction_ts", ⟨[3, 1], [1/5, 3/10, 1/2]⟩),
        ("cost_matrix", ⟨[2, 3], [1, 2, 3, 4, 5, 6]⟩), ("test_cells", ⟨[1, 2], [0, 0]⟩)]
      dims := [("destination", some 3), ("origin", some 2), ("time", some 1)]
      masks := [("test_cells_mask", [[true, false], [false, false], [false, false]])]
      grandTotal := none }
    [[true, false], [false, false], [false, false]] 2 (by decide +kernel) (by decide) (by decide)
  revert this
  decide

/-! ## C116 -/

theorem marginSet_lookup (k k' : List Nat) (v : List ℚ) (ms : List (List Nat × List ℚ)) :
    (marginSet k v ms).lookup k' = if k' = k then some v else ms.lookup k' := by
  induction ms with
  | nil =>
    by_cases h : k' = k
    · subst h; simp [marginSet]
    · simp [marginSet, List.lookup, h, beq_eq_false_iff_ne.mpr h]
  | cons p r ih =>
    obtain ⟨k'', v''⟩ := p
    unfold marginSet
    by_cases h1 : k'' = k
    · rw [if_pos h1]; subst h1
      by_cases h : k' = k''
      · subst h; simp
      · simp [List.lookup, h, beq_eq_false_iff_ne.mpr h]
    · rw [if_neg h1]
      by_cases h2 : k' = k''
      · subst h2
        simp [List.lookup, h1]
      · simp [List.lookup, beq_eq_false_iff_ne.mpr h2, ih]

/-- The value that the last configured margin over these axes gives. -/
def Spec.lastValue (cs : List MarginCfg) (axis : List Nat) : Option (List ℚ) :=
  (cs.filter fun c => c.axis = axis).getLast?.bind (·.value)

theorem importMarginList_lookup {files : InFiles} {cs : List MarginCfg} {ms ms' : List (List Nat × List ℚ)}
    (h : importMarginList files cs ms = .ok ms') (axis : List Nat) :
    (∀ c ∈ cs, openFile files c.file = none ∧ c.value.isSome) ∧
    ms'.lookup axis = ((Spec.lastValue cs axis).orElse fun _ => ms.lookup axis) := by
  induction cs generalizing ms with
  | nil => simp [importMarginList] at h; subst h; exact ⟨by simp, by simp [Spec.lastValue]⟩
  | cons c r ih =>
    unfold importMarginList at h
    cases ho : openFile files c.file with
    | some a => rw [ho] at h; simp at h
    | none =>
      rw [ho] at h
      simp only at h
      cases hv : c.value with
      | none => rw [hv] at h; simp at h
      | some v =>
        rw [hv] at h
        obtain ⟨h1, h2⟩ := ih h
        refine ⟨?_, ?_⟩
        · intro c' hc'
          rcases List.mem_cons.mp hc' with rfl | hc'
          · exact ⟨ho, by rw [hv]; rfl⟩
          · exact h1 c' hc'
        · rw [h2, marginSet_lookup]
          unfold Spec.lastValue
          by_cases ha : c.axis = axis
          · rw [List.filter_cons_of_pos (by simpa using ha), if_pos ha.symm]
            rcases List.eq_nil_or_concat' (r.filter fun c => c.axis = axis) with e | ⟨L, z, e⟩
            · rw [e]; simp [hv]
            · have hz : z ∈ r.filter fun c => c.axis = axis := by rw [e]; simp
              obtain ⟨u, hu⟩ := Option.isSome_iff_exists.mp (h1 z (List.mem_filter.mp hz).1).2
              rw [e, ← List.cons_append]
              simp only [List.getLast?_append, List.getLast?_singleton, Option.some_or, Option.bind_some, hu]
              rfl
          · rw [List.filter_cons_of_neg (by simpa using ha), if_neg (fun e => ha e.symm)]

/-- C116 (partial: only margins given by value can be imported): after a successful reading no configured margin has a file, each has
a value, and the object's margin over some axes is the value configured last for them; nothing else is a margin. -/
theorem C116_margin_values_partial (files : InFiles) (cellFile : String → Bool) (cfg : InCfg) (d : InData) (cs : List MarginCfg)
    (h : readData files cellFile cfg = .ok d) (hm : cfg.margins = some cs) :
    (∀ c ∈ cs, openFile files c.file = none ∧ c.value.isSome) ∧
    ∃ ms, d.margins = some ms ∧ ∀ axis, ms.lookup axis = Spec.lastValue cs axis := by
  obtain ⟨_, st₀, st, w, W, dk, _, _, h3, _⟩ := readData_ok h
  rw [hm] at h3
  simp only [importMargins] at h3
  cases hi : importMarginList files cs [] with
  | error e => rw [hi] at h3; simp [Except.map] at h3
  | ok ms =>
    rw [hi] at h3
    simp only [Except.map, Except.ok.injEq] at h3
    refine ⟨(importMarginList_lookup hi []).1, ms, h3.symm, fun axis => ?_⟩
    rw [(importMarginList_lookup hi axis).2]
    cases Spec.lastValue cs axis <;> simp

/-- C116: a margin that is given by an existing file cannot be imported, whatever the file holds. -/
theorem C116_margin_file_rejected (files : InFiles) (cellFile : String → Bool) (cfg : InCfg) (cs : List MarginCfg) (c : MarginCfg)
    (a : InArr) (hm : cfg.margins = some cs) (hc : c ∈ cs) (hf : openFile files c.file = some a) :
    ∀ d, readData files cellFile cfg ≠ .ok d := by
  intro d h
  have := (C116_margin_values_partial files cellFile cfg d cs h hm).1 c hc
  rw [hf] at this
  simp at this

/-- C116: the property "a strictly positive margin given by a file is imported" is false. -/
theorem C116_margin_file_false :
    ¬ ∀ (files : InFiles) (cellFile : String → Bool) (cfg : InCfg) (d₀ : InData) (c : MarginCfg) (a : InArr),
      readData files cellFile { cfg with margins := none } = .ok d₀ → cfg.margins = some [c] → openFile files c.file = some a →
      (∀ v ∈ a.vals, 0 < v) → ∃ d, readData files cellFile cfg = .ok d ∧ d.margins = some [(c.axis, a.vals)] := by
  intro h
  obtain ⟨d, hd, _⟩ := h exFiles (fun _ => false) { exCfg with margins := some [⟨[1], "margin.txt", none⟩] } exData
    ⟨[1], "margin.txt", none⟩ ⟨[2], [6, 15]⟩ exData_read rfl rfl (by simp)
  exact C116_margin_file_rejected _ _ _ _ ⟨[1], "margin.txt", none⟩ ⟨[2], [6, 15]⟩ rfl (by simp) rfl d hd

/-- C116: nothing is checked of a margin given by value: a negative one is taken. -/
theorem C116_value_sign_false :
    ¬ ∀ (files : InFiles) (cellFile : String → Bool) (cfg : InCfg) (d : InData) (ms : List (List Nat × List ℚ)),
      readData files cellFile cfg = .ok d → d.margins = some ms → ∀ p ∈ ms, ∀ v ∈ p.2, 0 < v := by
  intro h
  have := h exFiles (fun _ => false) { exCfg with margins := some [⟨[1], "", some [6, -15]⟩] }
    { exData with margins := some [([1], [6, -15])] } [([1], [6, -15])] (by decide +kernel) rfl ([1], [6, -15]) (by simp) (-15)
    (by simp)
  norm_num at this

/-- Non-vacuity of C116. -/
example : ∃ ms, exData.margins = none ∧ (readData exFiles (fun _ => false)
    { exCfg with margins := some [⟨[1], "", some [6, 15]⟩, ⟨[0, 1], "", some [21]⟩, ⟨[1], "", some [7, 14]⟩] } =
      .ok { exData with margins := some ms }) ∧ ms.lookup [1] = some [7, 14] :=
  ⟨[([1], [7, 14]), ([0, 1], [21])], rfl, by decide +kernel, by decide⟩

/-- C116: values of single cells never reach the object: the reading either gives the same as without them, or fails. -/
theorem C116_cells_never_used (files : InFiles) (cellFile : String → Bool) (cfg : InCfg) (d : InData)
    (h : readData files cellFile cfg = .ok d) :
    readData files cellFile { cfg with cellsSubset := none } = .ok d ∧
    ∀ f, cfg.cellsSubset = some f → cellFile f = true → ∃ t, d.attrs.lookup "ground_truth_table" = some t := by
  obtain ⟨hd, st₀, st, w, W, dk, h1, h2, h3, h4, h5, h6, h7, h8, e1, e2, e3, e4⟩ := readData_ok h
  constructor
  · unfold readData
    rw [if_neg (by simp [hd])]
    simp only [bind, Except.bind, h1, h2, h3, h5, h6, h7, importCellsSubset]
    rw [h8]
    simp only [pure, Except.pure, Except.ok.injEq]
    cases d
    simp only at e1 e2 e3 e4
    simp only [InData.mk.injEq, true_and, and_true]
    exact ⟨e1.symm, e2.symm, e3.symm, e4.symm⟩
  · intro f hf hc
    unfold importCellsSubset at h4
    rw [hf] at h4
    simp only at h4
    split at h4
    · rename_i hs
      obtain ⟨t, ht⟩ := Option.isSome_iff_exists.mp hs
      exact ⟨t, by rw [e1]; exact ht⟩
    · simp [hc] at h4

/-- Non-vacuity of `C116_cells_never_used`: with a table the cells are ignored; without one the reading fails. -/
example : readData exFiles (fun _ => true) { exCfg with cellsSubset := some "cells.json" } = .ok exData ∧
    ∀ d, readData exFiles (fun _ => true)
      { exCfg with data := [("cost_matrix", .name "cost.txt")], cellsSubset := some "cells.json" } ≠ .ok d := by
  refine ⟨by decide +kernel, fun d h => ?_⟩
  obtain ⟨t, ht⟩ := (C116_cells_never_used _ _ _ d h).2 "cells.json" rfl rfl
  rw [C113_content _ _ _ d h _ (by decide)] at ht
  revert ht
  unfold Spec.fileOf
  simp [List.lookup]

end GeNSIT
