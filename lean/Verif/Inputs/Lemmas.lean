import Verif.Inputs.Model
import Mathlib.Tactic.Linarith
import Mathlib.Tactic.FieldSimp
import Mathlib.Tactic.Ring
import Mathlib.Algebra.BigOperators.Group.List.Basic
import Mathlib.Algebra.Order.BigOperators.Group.List

/-!
# Lemmas about reading the input data
-/

set_option linter.unusedSimpArgs false
set_option linter.unusedVariables false

namespace GeNSIT

theorem lookup_inSet {β : Type} (k k' : String) (v : β) (d : List (String × β)) :
    (inSet k v d).lookup k' = if k' = k then some v else d.lookup k' := by
  induction d with
  | nil =>
    by_cases h : k' = k
    · subst h; simp [inSet]
    · simp [inSet, List.lookup, h, beq_eq_false_iff_ne.mpr h]
  | cons p r ih =>
    obtain ⟨k'', v''⟩ := p
    unfold inSet
    by_cases h1 : k'' = k
    · rw [if_pos h1]; subst h1
      by_cases h : k' = k''
      · subst h; simp
      · simp [List.lookup, h, beq_eq_false_iff_ne.mpr h]
    · rw [if_neg h1]
      by_cases h2 : k' = k''
      · subst h2
        simp [List.lookup, h1]
      · simp [List.lookup, beq_eq_false_iff_ne.mpr h2, ih]

theorem keys_inSet {β : Type} (k : String) (v : β) (d : List (String × β)) (h : k ∈ d.map (·.1)) :
    (inSet k v d).map (·.1) = d.map (·.1) := by
  induction d with
  | nil => simp at h
  | cons p r ih =>
    obtain ⟨k'', v''⟩ := p
    unfold inSet
    by_cases h1 : k'' = k
    · rw [if_pos h1]; simp [h1]
    · rw [if_neg h1]
      simp only [List.map_cons, List.mem_cons] at h ⊢
      rw [ih (h.resolve_left (fun e => h1 e.symm))]

theorem keys_updateDims {shape : List Nat} {axs : List (Nat × String)} {d d' : DimMap}
    (hk : ∀ p ∈ axs, p.2 ∈ d.map (·.1)) (h : updateDims shape axs d = .ok d') : d'.map (·.1) = d.map (·.1) := by
  induction axs generalizing d with
  | nil => simp [updateDims] at h; rw [h]
  | cons p r ih =>
    obtain ⟨ax, dim⟩ := p
    unfold updateDims at h
    cases hs : shape[ax]? with
    | none => rw [hs] at h; simp at h
    | some n =>
      rw [hs] at h
      have hk1 := keys_inSet dim (some n) d (hk (ax, dim) (by simp))
      have := ih (d := inSet dim (some n) d) (fun p hp => by rw [hk1]; exact hk p (by simp [hp])) h
      rw [this, hk1]

/-- What one step of the loop does to the attributes. -/
theorem readField_attrs {files : InFiles} {data : List (String × Source)} {f : Field} {st st' : InState}
    (h : readField files data f st = .ok st') :
    (data.lookup f.name = none ∧ st' = st) ∨
    (∃ src a, data.lookup f.name = some src ∧ openFile files src.file = some a ∧ f.readable = true ∧
      (f.positive = true → ∀ v ∈ a.vals, 0 ≤ v) ∧ st'.attrs = inSet f.name a st.attrs ∧
      updateDims a.shape (f.axes.zip f.dims) st.dims = .ok st'.dims) ∨
    (∃ src c, data.lookup f.name = some src ∧ openFile files src.file = none ∧ f.validation = true ∧
      st'.attrs = inSet f.name c st.attrs ∧ st'.dims = st.dims ∧
      (f.name = "test_cells" → allTableCells st.dims = .ok c) ∧ (f.name ≠ "test_cells" → c = ⟨[0], []⟩)) := by
  unfold readField at h
  cases hl : data.lookup f.name with
  | none => rw [hl] at h; simp at h; exact Or.inl ⟨rfl, h.symm⟩
  | some src =>
    rw [hl] at h
    simp only at h
    cases ho : openFile files src.file with
    | some a =>
      rw [ho] at h
      simp only at h
      split at h
      · simp at h
      · rename_i hr
        split at h
        · simp at h
        · rename_i hp
          cases hu : updateDims a.shape (f.axes.zip f.dims) st.dims with
          | error e => rw [hu] at h; simp at h
          | ok d =>
            rw [hu] at h
            simp only [Except.ok.injEq] at h
            refine Or.inr (Or.inl ⟨src, a, rfl, ho, by simpa using hr, ?_, ?_, ?_⟩)
            · intro hpos v hv
              simp only [hpos, Bool.true_and, List.any_eq_true, decide_eq_true_eq, not_exists, not_and, not_lt] at hp
              exact hp v hv
            · rw [← h]
            · rw [← h]; exact hu
    | none =>
      rw [ho] at h
      simp only at h
      split at h
      · rename_i hv
        split at h
        · rename_i ht
          cases ha : allTableCells st.dims with
          | error e => rw [ha] at h; simp at h
          | ok c =>
            rw [ha] at h
            simp only [Except.ok.injEq] at h
            exact Or.inr (Or.inr ⟨src, c, rfl, ho, hv, by rw [← h], by rw [← h], fun _ => rfl, fun hn => absurd ht hn⟩)
        · rename_i ht
          simp only [Except.ok.injEq] at h
          exact Or.inr (Or.inr ⟨src, ⟨[0], []⟩, rfl, ho, hv, by rw [← h], by rw [← h], fun e => absurd e ht, fun _ => rfl⟩)
      · simp at h

theorem readField_other {files : InFiles} {data : List (String × Source)} {f : Field} {st st' : InState} {name : String}
    (h : readField files data f st = .ok st') (hn : name ≠ f.name) : st'.attrs.lookup name = st.attrs.lookup name := by
  rcases readField_attrs h with ⟨_, rfl⟩ | ⟨src, a, _, _, _, _, ha, _⟩ | ⟨src, c, _, _, _, ha, _⟩
  · rfl
  · rw [ha, lookup_inSet, if_neg hn]
  · rw [ha, lookup_inSet, if_neg hn]

theorem readFields_other {files : InFiles} {data : List (String × Source)} {fs : List Field} {st st' : InState} {name : String}
    (h : readFields files data fs st = .ok st') (hn : ∀ f ∈ fs, name ≠ f.name) :
    st'.attrs.lookup name = st.attrs.lookup name := by
  induction fs generalizing st with
  | nil => simp [readFields] at h; rw [h]
  | cons f r ih =>
    unfold readFields at h
    cases h1 : readField files data f st with
    | error e => rw [h1] at h; simp at h
    | ok st1 =>
      rw [h1] at h
      rw [ih h (fun g hg => hn g (by simp [hg])), readField_other h1 (hn f (by simp))]

/-- Every entry of the schema was processed once, in a state in which its attribute was as at the start. -/
theorem readFields_step {files : InFiles} {data : List (String × Source)} {fs : List Field} {st st' : InState} {f : Field}
    (h : readFields files data fs st = .ok st') (hf : f ∈ fs) (hnd : (fs.map (·.name)).Nodup) :
    ∃ s s', readField files data f s = .ok s' ∧ s.attrs.lookup f.name = st.attrs.lookup f.name ∧
      s'.attrs.lookup f.name = st'.attrs.lookup f.name := by
  induction fs generalizing st with
  | nil => simp at hf
  | cons g r ih =>
    unfold readFields at h
    cases h1 : readField files data g st with
    | error e => rw [h1] at h; simp at h
    | ok st1 =>
      rw [h1] at h
      simp only [List.map_cons, List.nodup_cons] at hnd
      rcases List.mem_cons.mp hf with rfl | hf'
      · refine ⟨st, st1, h1, rfl, ?_⟩
        exact (readFields_other h (fun g hg e => hnd.1 (by rw [e]; exact List.mem_map_of_mem hg))).symm
      · obtain ⟨s, s', hs, ha, hb⟩ := ih h hf' hnd.2
        refine ⟨s, s', hs, ?_, hb⟩
        rw [ha]
        exact readField_other h1 (fun e => hnd.1 (by rw [← e]; exact List.mem_map_of_mem hf'))

theorem readFields_keys {files : InFiles} {data : List (String × Source)} {fs : List Field} {st st' : InState}
    (h : readFields files data fs st = .ok st') (hk : ∀ f ∈ fs, ∀ p ∈ f.axes.zip f.dims, p.2 ∈ st.dims.map (·.1)) :
    st'.dims.map (·.1) = st.dims.map (·.1) := by
  induction fs generalizing st with
  | nil => simp [readFields] at h; rw [h]
  | cons g r ih =>
    unfold readFields at h
    cases h1 : readField files data g st with
    | error e => rw [h1] at h; simp at h
    | ok st1 =>
      rw [h1] at h
      have hk1 : st1.dims.map (·.1) = st.dims.map (·.1) := by
        rcases readField_attrs h1 with ⟨_, rfl⟩ | ⟨src, a, _, _, _, _, _, hu⟩ | ⟨src, c, _, _, _, _, hd, _⟩
        · rfl
        · exact keys_updateDims (hk g (by simp)) hu
        · rw [hd]
      rw [ih h (fun f hf p hp => by rw [hk1]; exact hk f (by simp [hf]) p hp), hk1]

theorem inputSchema_nodup : (inputSchema.map (·.name)).Nodup := by decide

theorem inputSchema_dims : ∀ f ∈ inputSchema, ∀ p ∈ f.axes.zip f.dims, p.2 ∈ ["origin", "destination", "time"] := by decide

/-- The parts of a successful reading. -/
theorem readData_ok {files : InFiles} {cellFile : String → Bool} {cfg : InCfg} {d : InData}
    (h : readData files cellFile cfg = .ok d) :
    cfg.hasDataset = true ∧ ∃ st₀ st w W dk,
      readFields files cfg.data inputSchema ⟨[], cfg.dims.getD defaultDims⟩ = .ok st₀ ∧
      defaultTestCells st₀ = .ok st ∧ importMargins files cfg.margins = .ok d.margins ∧
      importCellsSubset cellFile cfg.cellsSubset st = .ok () ∧ validateDims st = .ok () ∧
      createCellMasks st validationSchema = .ok d.masks ∧ zoneSizes st = .ok (w, W) ∧
      deltaKappa w W (totalFlow st (grandTotalOf st)) (dimOf st.dims "destination")
        (givenNonneg cfg.hwParams "delta") (givenNonneg cfg.hwParams "kappa") = .ok dk ∧
      d.attrs = st.attrs ∧ d.dims = st.dims ∧ d.grandTotal = grandTotalOf st ∧
      d.params = inSet "kappa" dk.2 (inSet "delta" dk.1 (givenParams cfg)) := by
  unfold readData at h
  split at h
  · simp at h
  · rename_i hd
    refine ⟨by simpa using hd, ?_⟩
    simp only [bind, Except.bind] at h
    cases h1 : readFields files cfg.data inputSchema ⟨[], cfg.dims.getD defaultDims⟩ with
    | error e => rw [h1] at h; simp at h
    | ok st₀ =>
    rw [h1] at h; simp only at h
    cases h2 : defaultTestCells st₀ with
    | error e => rw [h2] at h; simp at h
    | ok st =>
    rw [h2] at h; simp only at h
    cases h3 : importMargins files cfg.margins with
    | error e => rw [h3] at h; simp at h
    | ok ms =>
    rw [h3] at h; simp only at h
    cases h4 : importCellsSubset cellFile cfg.cellsSubset st with
    | error e => rw [h4] at h; simp at h
    | ok u =>
    rw [h4] at h; simp only at h
    cases h5 : validateDims st with
    | error e => rw [h5] at h; simp at h
    | ok u' =>
    rw [h5] at h; simp only at h
    cases h6 : createCellMasks st validationSchema with
    | error e => rw [h6] at h; simp at h
    | ok masks =>
    rw [h6] at h; simp only at h
    cases h7 : zoneSizes st with
    | error e => rw [h7] at h; simp at h
    | ok wW =>
    rw [h7] at h; simp only at h
    cases h8 : deltaKappa wW.1 wW.2 (totalFlow st (grandTotalOf st)) (dimOf st.dims "destination")
        (givenNonneg cfg.hwParams "delta") (givenNonneg cfg.hwParams "kappa") with
    | error e => rw [h8] at h; simp at h
    | ok dk =>
    rw [h8] at h
    simp only [pure, Except.pure, Except.ok.injEq] at h
    subst h
    exact ⟨st₀, st, wW.1, wW.2, dk, rfl, h2, rfl, h4, by rw [h5], h6, h7, h8, rfl, rfl, rfl, rfl⟩

theorem defaultTestCells_attrs {st st' : InState} (h : defaultTestCells st = .ok st') :
    st'.dims = st.dims ∧ (∀ name, name ≠ "test_cells" → st'.attrs.lookup name = st.attrs.lookup name) ∧
    ((∃ a, st.attrs.lookup "test_cells" = some a ∧ st' = st) ∨
     (st.attrs.lookup "test_cells" = none ∧ ∃ c, allTableCells st.dims = .ok c ∧ st'.attrs.lookup "test_cells" = some c)) := by
  unfold defaultTestCells at h
  cases hl : st.attrs.lookup "test_cells" with
  | some a =>
    rw [hl] at h; simp only [Except.ok.injEq] at h; subst h
    exact ⟨rfl, fun _ _ => rfl, Or.inl ⟨a, rfl, rfl⟩⟩
  | none =>
    rw [hl] at h
    simp only at h
    cases hc : allTableCells st.dims with
    | error e => rw [hc] at h; simp at h
    | ok c =>
      rw [hc] at h
      simp only [Except.ok.injEq] at h
      subst h
      refine ⟨rfl, fun name hn => by rw [lookup_inSet, if_neg hn], Or.inr ⟨rfl, c, rfl, by rw [lookup_inSet, if_pos rfl]⟩⟩

/-! ## Masks -/

theorem cellIndex_natCast (n : Nat) : cellIndex (n : ℚ) = some n := by
  unfold cellIndex
  rw [if_pos ⟨by simp, by positivity⟩]
  simp

theorem cellIndex_some {q : ℚ} {n : Nat} : cellIndex q = some n ↔ q = n := by
  constructor
  · intro h
    unfold cellIndex at h
    split at h
    · rename_i hq
      simp only [Option.some.injEq] at h
      have h0 : 0 ≤ q.num := Rat.num_nonneg.mpr hq.2
      have : (q.num : ℚ) = q := by
        conv_rhs => rw [← Rat.num_div_den q]
        simp [hq.1]
      rw [← this, ← h]
      exact_mod_cast (Int.toNat_of_nonneg h0).symm
    · simp at h
  · rintro rfl; exact cellIndex_natCast n

/-- A mask of shape `(n, m)`. -/
def MaskShape (n m : Nat) (mask : Mask) : Prop := mask.length = n ∧ ∀ r ∈ mask, r.length = m

theorem maskShape_blank (n m : Nat) (b : Bool) : MaskShape n m (List.replicate n (List.replicate m b)) :=
  ⟨by simp, fun r hr => by rw [List.eq_of_mem_replicate hr]; simp⟩

/-- The entry of a mask; false outside of it. -/
def maskAt (mask : Mask) (i j : Nat) : Bool := (mask[i]?.bind fun r => r[j]?).getD false

theorem maskAt_blank (n m i j : Nat) : maskAt (List.replicate n (List.replicate m false)) i j = false := by
  unfold maskAt
  by_cases hi : i < n
  · by_cases hj : j < m <;> simp [List.getElem?_replicate, hi, hj]
  · simp [List.getElem?_replicate, hi]

theorem markPair_spec {n m i j : Nat} {mask : Mask} (hm : MaskShape n m mask) (hi : i < n) (hj : j < m) :
    MaskShape n m (mask.modify i fun r => r.set j true) ∧
    ∀ a b, maskAt (mask.modify i fun r => r.set j true) a b = (maskAt mask a b || decide (a = i ∧ b = j)) := by
  refine ⟨⟨by simp [hm.1], ?_⟩, ?_⟩
  · intro r hr
    obtain ⟨k, hk, rfl⟩ := List.mem_iff_getElem.mp hr
    rw [List.getElem_modify]
    have hk' : k < mask.length := by simpa using hk
    have := hm.2 _ (List.getElem_mem hk')
    split
    · simpa using this
    · exact this
  · intro a b
    unfold maskAt
    rw [List.getElem?_modify]
    by_cases ha : a = i
    · subst ha
      have hal : a < mask.length := by rw [hm.1]; exact hi
      have hr := hm.2 _ (List.getElem_mem hal)
      simp only [List.getElem?_eq_getElem hal, if_true, Option.map_some, Option.bind_some, List.getElem?_set]
      by_cases hb : b = j
      · subst hb; simp [hr, hj]
      · simp [hb, Ne.symm hb, eq_comm]
    · simp [ha, Ne.symm ha, eq_comm]

theorem markCells_pairs {n m : Nat} {cells : List (List (Option Nat))} {mask mask' : Mask} (hm : MaskShape n m mask)
    (h2 : ∀ c ∈ cells, c.length = 2) (h : markCells n m cells mask = .ok mask') :
    MaskShape n m mask' ∧ (∀ a b, maskAt mask' a b = (maskAt mask a b || decide ([some a, some b] ∈ cells))) ∧
    (∀ c ∈ cells, ∃ i j, i < n ∧ j < m ∧ c = [some i, some j]) := by
  induction cells generalizing mask with
  | nil => simp [markCells] at h; subst h; exact ⟨hm, fun a b => by simp, fun c hc => by simp at hc⟩
  | cons c r ih =>
    unfold markCells at h
    cases h1 : markCell n m c mask with
    | error e => rw [h1] at h; simp at h
    | ok k =>
      rw [h1] at h
      have hc := h2 c (by simp)
      obtain ⟨x, y, rfl⟩ : ∃ x y, c = [x, y] := by
        match c, hc with
        | [x, y], _ => exact ⟨x, y, rfl⟩
      cases x with
      | none => simp [markCell] at h1
      | some i =>
      cases y with
      | none => simp [markCell] at h1
      | some j =>
      simp only [markCell] at h1
      split at h1
      · rename_i hij
        simp only [Except.ok.injEq] at h1
        subst h1
        obtain ⟨hs, hv⟩ := markPair_spec hm hij.1 hij.2
        obtain ⟨a1, a2, a3⟩ := ih hs (fun c hc => h2 c (by simp [hc])) h
        refine ⟨a1, fun a b => ?_, ?_⟩
        · rw [a2, hv, Bool.or_assoc]
          congr 1
          rw [← Bool.decide_or, decide_eq_decide]
          simp [List.mem_cons]
        · intro c hc
          rcases List.mem_cons.mp hc with rfl | hc
          · exact ⟨i, j, hij.1, hij.2, rfl⟩
          · exact a3 c hc
      · simp at h1

theorem markCells_total {n m : Nat} {cells : List (Nat × Nat)} {mask : Mask} (h : ∀ p ∈ cells, p.1 < n ∧ p.2 < m) :
    ∃ mask', markCells n m (cells.map fun p => [some p.1, some p.2]) mask = .ok mask' := by
  induction cells generalizing mask with
  | nil => exact ⟨mask, rfl⟩
  | cons p r ih =>
    simp only [List.map_cons, markCells, markCell]
    rw [if_pos (h p (by simp))]
    exact ih fun q hq => h q (by simp [hq])

theorem mem_cellList {n m : Nat} {p : Nat × Nat} : p ∈ cellList n m ↔ p.1 < n ∧ p.2 < m := by
  obtain ⟨a, b⟩ := p
  simp [cellList]

theorem rowsOf_pairs (L : List (Nat × Nat)) :
    arrRows L.length 2 (L.flatMap fun p => [(p.1 : ℚ), (p.2 : ℚ)]) = L.map fun p => [(p.1 : ℚ), (p.2 : ℚ)] := by
  induction L with
  | nil => rfl
  | cons p r ih =>
    unfold arrRows at ih ⊢
    rw [List.length_cons, List.range_succ_eq_map]
    simp only [List.map_cons, List.map_map]
    refine congrArg₂ _ (by simp) ?_
    rw [← ih]
    apply List.map_congr_left
    intro i _
    simp only [Function.comp_apply, List.flatMap_cons]
    rw [show (i + 1) * 2 = i * 2 + 2 by ring]
    rw [show (i * 2 + 2) = 2 + i * 2 by ring, ← List.drop_drop]
    simp

/-- The mask of all cells is true everywhere. -/
theorem createMask_all (n m : Nat) :
    createMask n m (cellArray (cellList n m)) = .ok (List.replicate n (List.replicate m true)) := by
  unfold createMask cellArray
  by_cases hL : cellList n m = []
  · simp only [hL, if_true]
    have : n = 0 ∨ m = 0 := by
      by_contra hc
      push Not at hc
      have : ((0, 0) : Nat × Nat) ∈ cellList n m := mem_cellList.mpr ⟨Nat.pos_of_ne_zero hc.1, Nat.pos_of_ne_zero hc.2⟩
      rw [hL] at this; simp at this
    rcases this with rfl | rfl <;> simp
  · simp only [if_neg hL]
    rw [rowsOf_pairs, List.map_map]
    have e : ((fun r : List ℚ => r.map cellIndex) ∘ fun p : Nat × Nat => [(p.1 : ℚ), (p.2 : ℚ)]) =
        fun p => [some p.1, some p.2] := by
      funext p; simp [cellIndex_natCast]
    rw [e]
    obtain ⟨mask', h⟩ := markCells_total (n := n) (m := m) (cells := cellList n m)
      (mask := List.replicate n (List.replicate m false)) (fun p hp => mem_cellList.mp hp)
    rw [h]
    obtain ⟨hs, hv, _⟩ := markCells_pairs (maskShape_blank n m false)
      (by rintro c hc; obtain ⟨p, _, rfl⟩ := List.mem_map.mp hc; rfl) h
    congr 1
    apply List.ext_getElem (by simp [hs.1])
    intro i h1 h2
    have hr := hs.2 _ (List.getElem_mem h1)
    apply List.ext_getElem (by simp [hr])
    intro j h3 h4
    have hin : i < n := by rw [hs.1] at h1; exact h1
    have hjm : j < m := by rw [hr] at h3; exact h3
    have := hv i j
    rw [maskAt_blank] at this
    simp only [List.mem_map, Bool.false_or] at this
    rw [decide_eq_true (⟨(i, j), mem_cellList.mpr ⟨hin, hjm⟩, rfl⟩ :
      ∃ a ∈ cellList n m, [some a.1, some a.2] = [some i, some j])] at this
    unfold maskAt at this
    rw [List.getElem?_eq_getElem h1] at this
    simp only [Option.bind_some, List.getElem?_eq_getElem h3, Option.getD_some] at this
    simpa using this

theorem createCellMasks_lookup {st : InState} {fs : List Field} {ms : List (String × Mask)} {f : Field}
    (h : createCellMasks st fs = .ok ms) (hf : f ∈ fs)
    (hnd : (fs.map fun f => f.name ++ "_mask").Nodup) :
    maskOf st f.name = .ok (ms.lookup (f.name ++ "_mask")) := by
  induction fs generalizing ms with
  | nil => simp at hf
  | cons g r ih =>
    unfold createCellMasks at h
    simp only [List.map_cons, List.nodup_cons] at hnd
    cases h1 : maskOf st g.name with
    | error e => rw [h1] at h; simp at h
    | ok o =>
      rw [h1] at h
      have hnot : ∀ {ms'}, createCellMasks st r = .ok ms' → ms'.lookup (g.name ++ "_mask") = none := by
        intro ms' h'
        rw [List.lookup_eq_none_iff]
        have key : ∀ (fs : List Field) ms', createCellMasks st fs = .ok ms' → ∀ p ∈ ms', ∃ f ∈ fs, p.1 = f.name ++ "_mask" := by
          intro fs
          induction fs with
          | nil => intro ms' h p hp; simp [createCellMasks] at h; subst h; simp at hp
          | cons g' r' ih' =>
            intro ms' h p hp
            unfold createCellMasks at h
            cases h1 : maskOf st g'.name with
            | error e => rw [h1] at h; simp at h
            | ok o =>
              rw [h1] at h
              cases o with
              | none =>
                obtain ⟨f, hf, e⟩ := ih' ms' h p hp
                exact ⟨f, by simp [hf], e⟩
              | some k =>
                simp only at h
                cases h2 : createCellMasks st r' with
                | error e => rw [h2] at h; simp [Except.map] at h
                | ok ms'' =>
                  rw [h2] at h
                  simp only [Except.map, Except.ok.injEq] at h
                  subst h
                  rcases List.mem_cons.mp hp with rfl | hp
                  · exact ⟨g', by simp, rfl⟩
                  · obtain ⟨f, hf, e⟩ := ih' ms'' h2 p hp
                    exact ⟨f, by simp [hf], e⟩
        intro p hp
        obtain ⟨f', hf', e⟩ := key r ms' h' p hp
        rw [e]
        rw [bne_iff_ne]
        intro e'
        exact hnd.1 (List.mem_map.mpr ⟨f', hf', e'.symm⟩)
      cases o with
      | none =>
        simp only at h
        rcases List.mem_cons.mp hf with rfl | hf'
        · rw [h1, hnot h]
        · exact ih h hf' hnd.2
      | some k =>
        simp only at h
        cases h2 : createCellMasks st r with
        | error e => rw [h2] at h; simp [Except.map] at h
        | ok ms' =>
          rw [h2] at h
          simp only [Except.map, Except.ok.injEq] at h
          subst h
          rcases List.mem_cons.mp hf with rfl | hf'
          · rw [h1]; simp
          · rw [ih h2 hf' hnd.2]
            have hne : f.name ++ "_mask" ≠ g.name ++ "_mask" := fun e =>
              hnd.1 (List.mem_map.mpr ⟨f, hf', e⟩)
            rw [List.lookup_cons, beq_eq_false_iff_ne.mpr hne]

/-! ## Zones -/

theorem minVal_spec {L : List ℚ} {w : ℚ} (h : minVal L = some w) : w ∈ L ∧ ∀ x ∈ L, w ≤ x := by
  induction L generalizing w with
  | nil => simp [minVal] at h
  | cons x r ih =>
    cases r with
    | nil => simp [minVal] at h; subst h; simp
    | cons y r' =>
      rw [show minVal (x :: y :: r') = (minVal (y :: r')).map (min x) from rfl] at h
      cases hm : minVal (y :: r') with
      | none => rw [hm] at h; simp at h
      | some v =>
        rw [hm] at h
        simp only [Option.map_some, Option.some.injEq] at h
        obtain ⟨h1, h2⟩ := ih hm
        subst h
        constructor
        · rcases min_choice x v with e | e
          · rw [e]; simp
          · rw [e]; exact List.mem_cons_of_mem _ h1
        · intro z hz
          rcases List.mem_cons.mp hz with rfl | hz
          · exact min_le_left _ _
          · exact le_trans (min_le_right _ _) (h2 z hz)

theorem sum_ge_const {L : List ℚ} {w : ℚ} (h : ∀ x ∈ L, w ≤ x) : w * L.length ≤ L.sum := by
  induction L with
  | nil => simp
  | cons x r ih =>
    have := ih fun y hy => h y (by simp [hy])
    have hx := h x (by simp)
    simp only [List.length_cons, List.sum_cons]
    push_cast
    linarith

theorem sum_eq_const {L : List ℚ} {w : ℚ} (h : ∀ x ∈ L, w ≤ x) : L.sum = w * L.length ↔ ∀ x ∈ L, x = w := by
  induction L with
  | nil => simp
  | cons x r ih =>
    have hr : ∀ y ∈ r, w ≤ y := fun y hy => h y (by simp [hy])
    have hge := sum_ge_const hr
    have hx := h x (by simp)
    simp only [List.length_cons, List.sum_cons, List.forall_mem_cons]
    constructor
    · intro e
      push_cast at e
      have e1 : x = w := by linarith
      exact ⟨e1, (ih hr).mp (by rw [e1] at e; linarith)⟩
    · rintro ⟨rfl, h2⟩
      rw [(ih hr).mpr h2]; push_cast; ring

end GeNSIT
