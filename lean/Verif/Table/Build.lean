import Verif.Table.Props

/-!
# C164, C165, C168: building, changing and comparing contingency tables

* C164: `import_tabular_data` (`gensit/contingency_table/__init__.py:348-437`) — tables given in full, in part or not at all;
* C165: replacing the table or margins of a built table (`update_table`, `update_margins` and relatives, lines 547-555, 656-726);
* C168: equality of tables (`__eq__`, lines 255-288) and the Markov basis handed to a sampler (`ContingencyTable_MCMC.py:70-79`).

Simplifications: two-way tables; margins are integers (the drawn margins stay floating point in the code); device and dtype conversions are left out.
-/

namespace GeNSIT

open Spec

/-! ## C164 -/

/-- The checks on a given margin (`contingency_table/__init__.py:379-403`): its length, and that it adds up to the stored grand total (which must be there and have one entry). -/
def marginGiven (m n : Nat) (given : Margins) (ax : Ax) : Bool :=
  match given ax with
  | none => true
  | some l => (ax != [0] || l.length == n) && (ax != [1] || l.length == m) && (given [0, 1] == some [l.sum])

/-- What the code draws for missing margins (lines 410-431): a total, and margins for a given total. -/
structure MarginDraws (m n : Nat) where
  total : Int
  rows : Int → Fin m → Int
  cols : Int → Fin n → Int

/-- `torch.randint` and `Multinomial(total).sample()`: non-negative counts that add up to the total. -/
structure MarginDraws.Sound {m n : Nat} (d : MarginDraws m n) : Prop where
  total : 1 ≤ d.total
  rows_nonneg : ∀ N i, 0 ≤ N → 0 ≤ d.rows N i
  cols_nonneg : ∀ N j, 0 ≤ N → 0 ≤ d.cols N j
  rows_sum : ∀ N, ∑ i, d.rows N i = N
  cols_sum : ∀ N, ∑ j, d.cols N j = N

/-- `import_tabular_data` (lines 348-437); `none`: an exception.  A table without negative entries determines the margins; otherwise margins are checked, missing ones drawn, and the table is
filled with `-1`.  Returns table and margins (residual margins are a copy of the latter, line 432). -/
def importTabular {m n : Nat} (truth : Option (Table m n)) (given : Margins) (d : MarginDraws m n) : Option (Option (Table m n) × Margins) :=
  match truth with
  | some t =>
    if tableNonnegative t then some (some t, updateMarginsFromTable t given) else go (some fun _ _ => -1)
  | none => go none
where
  /-- The branch of tables that are not given in full. -/
  go (t : Option (Table m n)) : Option (Option (Table m n) × Margins) :=
    if (allAxes 2).all (marginGiven m n given) && decide (0 < m * n) then
      let tot := ((given [0, 1]).getD [d.total])
      let N := tot.headD 0
      some (t, fun a =>
        if a = [0, 1] then some tot
        else if a = [0] then some ((given [0]).getD (List.ofFn (d.cols N)))
        else if a = [1] then some ((given [1]).getD (List.ofFn (d.rows N)))
        else given a)
    else none

theorem allAxes_two : allAxes 2 = [[0], [1], [0, 1]] := by decide +kernel

theorem exists_ofFn {k : Nat} (l : List Int) (h : l.length = k) : ∃ f : Fin k → Int, l = List.ofFn f := by
  subst h
  exact ⟨fun i => l[i], (List.ofFn_getElem).symm⟩

/-- **C164 (margins).** A table that is not given in full gets margins that fit together: rows and columns both add up to the total; and every margin that was given is kept. -/
theorem C164_margins {m n : Nat} (truth : Option (Table m n)) (hp : ∀ t, truth = some t → ¬ Nonneg t) (given : Margins) (d : MarginDraws m n) (hd : d.Sound)
    (r : Option (Table m n) × Margins) (h : importTabular truth given d = some r) :
    ∃ row col tot, Stores (m := m) (n := n) r.2 row col tot ∧ ∑ i, row i = tot ∧ ∑ j, col j = tot ∧ ∀ ax l, given ax = some l → r.2 ax = some l := by
  have hgo : ∃ t, importTabular.go given d t = some r := by
    cases truth with
    | none => exact ⟨_, h⟩
    | some t =>
      have : tableNonnegative t = false := by
        rw [Bool.eq_false_iff]
        intro hn
        exact hp t rfl (by simpa [tableNonnegative, Nonneg] using hn)
      simp only [importTabular, this] at h
      exact ⟨_, h⟩
  obtain ⟨t, hgo⟩ := hgo
  simp only [importTabular.go, allAxes_two] at hgo
  split at hgo
  · rename_i hc
    obtain rfl := Option.some.inj hgo
    simp only [List.all_cons, List.all_nil, Bool.and_true, Bool.and_eq_true, decide_eq_true_eq] at hc
    obtain ⟨⟨h0, h1, h01⟩, _⟩ := hc
    -- the total
    obtain ⟨N, hN, hN'⟩ : ∃ N, (given [0, 1]).getD [d.total] = [N] ∧ (∀ l, given [0, 1] = some l → l = [N]) := by
      cases hg : given [0, 1] with
      | none => exact ⟨d.total, rfl, by simp⟩
      | some l =>
        rw [marginGiven, hg] at h01
        simp only [Bool.and_eq_true, beq_iff_eq, Option.some.injEq] at h01
        exact ⟨l.sum, h01.2, fun l' hl' => by rw [Option.some.injEq] at hl'; rw [← hl']; exact h01.2⟩
    have hsum : ∀ ax l, marginGiven m n given ax = true → given ax = some l → l.sum = N := by
      intro ax l hm hl
      rw [marginGiven, hl] at hm
      simp only [Bool.and_eq_true, beq_iff_eq] at hm
      have := hN' _ hm.2
      simpa using this
    obtain ⟨row, hrow, hrs⟩ : ∃ row : Fin m → Int, (given [1]).getD (List.ofFn (d.rows N)) = List.ofFn row ∧ ∑ i, row i = N := by
      cases hg : given [1] with
      | none => exact ⟨_, rfl, hd.rows_sum N⟩
      | some l =>
        have hs := hsum _ _ h1 hg
        rw [marginGiven, hg] at h1
        simp only [Bool.and_eq_true, Bool.or_eq_true, bne_self_eq_false, Bool.false_eq_true, false_or, beq_iff_eq] at h1
        obtain ⟨f, rfl⟩ := exists_ofFn l h1.1.2
        exact ⟨f, rfl, by rw [← List.sum_ofFn, hs]⟩
    obtain ⟨col, hcol, hcs⟩ : ∃ col : Fin n → Int, (given [0]).getD (List.ofFn (d.cols N)) = List.ofFn col ∧ ∑ j, col j = N := by
      cases hg : given [0] with
      | none => exact ⟨_, rfl, hd.cols_sum N⟩
      | some l =>
        have hs := hsum _ _ h0 hg
        rw [marginGiven, hg] at h0
        simp only [Bool.and_eq_true, Bool.or_eq_true, bne_self_eq_false, Bool.false_eq_true, false_or, beq_iff_eq] at h0
        obtain ⟨f, rfl⟩ := exists_ofFn l h0.1.1
        exact ⟨f, rfl, by rw [← List.sum_ofFn, hs]⟩
    refine ⟨row, col, N, ⟨?_, ?_, ?_⟩, hrs, hcs, ?_⟩
    · simp [hN, hrow]
    · simp [hN, hcol]
    · simp [hN]
    · intro ax l hl
      by_cases e1 : ax = [0, 1]
      · subst e1; simp [hl]
      · by_cases e2 : ax = [0]
        · subst e2; simp [hl]
        · by_cases e3 : ax = [1]
          · subst e3; simp [hl]
          · simp [e1, e2, e3, hl]
  · simp at hgo

/-- **C164 (refusals).** Building is refused exactly if a given margin has the wrong length or does not add up to the given total, or there are margins but no total, or there are no cells. -/
theorem C164_refused_iff {m n : Nat} (given : Margins) (d : MarginDraws m n) :
    importTabular (m := m) (n := n) none given d = none ↔
      m * n = 0 ∨ (∃ l, given [0] = some l ∧ (l.length ≠ n ∨ given [0, 1] ≠ some [l.sum])) ∨
        (∃ l, given [1] = some l ∧ (l.length ≠ m ∨ given [0, 1] ≠ some [l.sum])) ∨ ∃ l, given [0, 1] = some l ∧ l.length ≠ 1 := by
  have e0 : marginGiven m n given [0] = true ↔ ∀ l, given [0] = some l → l.length = n ∧ given [0, 1] = some [l.sum] := by
    unfold marginGiven
    cases h : given [0] <;> simp
  have e1 : marginGiven m n given [1] = true ↔ ∀ l, given [1] = some l → l.length = m ∧ given [0, 1] = some [l.sum] := by
    unfold marginGiven
    cases h : given [1] <;> simp
  have e01 : marginGiven m n given [0, 1] = true ↔ ∀ l, given [0, 1] = some l → l.length = 1 := by
    unfold marginGiven
    cases h : given [0, 1] with
    | none => simp
    | some l =>
      simp only [bne_iff_ne, ne_eq, List.cons.injEq, reduceCtorEq, and_false, not_false_eq_true, Bool.and_eq_true, Bool.or_eq_true, beq_iff_eq,
        Option.some.injEq, forall_eq', zero_ne_one, true_or, true_and]
      constructor
      · intro h; rw [h]; rfl
      · intro h
        obtain ⟨x, rfl⟩ := List.length_eq_one_iff.1 h
        simp
  simp only [importTabular, importTabular.go, allAxes_two, List.all_cons, List.all_nil, Bool.and_true]
  constructor
  · intro h
    by_contra hno
    push Not at hno
    obtain ⟨h1, h2, h3, h4⟩ := hno
    have : (marginGiven m n given [0] && (marginGiven m n given [1] && marginGiven m n given [0, 1]) && decide (0 < m * n)) = true := by
      simp only [Bool.and_eq_true, decide_eq_true_eq]
      exact ⟨⟨e0.2 h2, e1.2 h3, e01.2 h4⟩, Nat.pos_of_ne_zero h1⟩
    rw [if_pos this] at h
    simp at h
  · intro h
    rw [if_neg]
    simp only [Bool.and_eq_true, decide_eq_true_eq, e0, e1, e01]
    rintro ⟨⟨h0, h1, h01⟩, hp⟩
    rcases h with h | ⟨l, hl, h⟩ | ⟨l, hl, h⟩ | ⟨l, hl, h⟩
    · omega
    · rcases h with h | h
      · exact h (h0 l hl).1
      · exact h (h0 l hl).2
    · rcases h with h | h
      · exact h (h1 l hl).1
      · exact h (h1 l hl).2
    · exact h (h01 l hl)

/-- **C164 (full table).** A table given in full is kept, with its own margins, whatever margins were given with it. -/
theorem C164_full {m n : Nat} (t : Table m n) (ht : Nonneg t) (given : Margins) (d : MarginDraws m n) :
    ∃ mg, importTabular (some t) given d = some (some t, mg) ∧ Stores mg (rowSum t) (colSum t) (total t) := by
  have : tableNonnegative t = true := decide_eq_true ht
  refine ⟨updateMarginsFromTable t given, by simp [importTabular, this], (C23_margins_from_table t ht given).1⟩

/-- **C164 is false of tables given in part**: the known cells are forgotten.  Whatever was known, after building the table is `-1` everywhere; if known cells are to be kept fixed, no
table without negative entries is admissible any more, and each fixed cell *adds* one to the residual margins of its row and column. -/
theorem C164_partial_forgotten {m n : Nat} (t : Table m n) (hp : ¬ Nonneg t) (given : Margins) (d : MarginDraws m n) (r : Option (Table m n) × Margins)
    (h : importTabular (some t) given d = some r) :
    r.1 = some (fun _ _ => -1) ∧
      (∀ (fixed : List (Cell m n)) (x : Table m n), fixed ≠ [] → Nonneg x → tableCellsAdmissible (fun _ _ => -1) fixed x = false) := by
  have hn : tableNonnegative t = false := by
    rw [Bool.eq_false_iff]
    intro hn
    exact hp (by simpa [tableNonnegative, Nonneg] using hn)
  simp only [importTabular, hn, importTabular.go] at h
  refine ⟨?_, ?_⟩
  · simp only [Bool.false_eq_true, if_false] at h
    split at h
    · obtain rfl := Option.some.inj h; rfl
    · simp at h
  · intro fixed x hf hx
    obtain ⟨c, hc⟩ := List.exists_mem_of_ne_nil fixed hf
    rw [Bool.eq_false_iff]
    intro ha
    rw [tableCellsAdmissible, List.all_eq_true] at ha
    have := ha c hc
    simp only [beq_iff_eq] at this
    have := hx c.1 c.2
    omega

/-- **C164 (residual margins of partial tables).** The residual margins the samplers then use: the margin *plus* the number of fixed cells. -/
theorem C164_partial_residual {m n : Nat} (s s' : CT m n) (row : Fin m → Int) (col : Fin n → Int) (tot : Int) (ht : s.truth = fun _ _ => -1)
    (hr : Stores s.residual row col tot) (hnd : s.fixed.Nodup) (hcells : s.cells = allCells m n) (hp : s.propagate = some s') :
    Stores s'.residual (fun i => row i + (Finset.univ.filter fun j => (i, j) ∈ s.fixed).card) (fun j => col j + (Finset.univ.filter fun i => (i, j) ∈ s.fixed).card)
      (tot + (Finset.univ.filter fun c : Cell m n => c ∈ s.fixed).card) := by
  have h := (C16_residual_margins s s' row col tot hr hnd hcells hp).1
  have e1 : ∀ i, fixedInRow s.truth s.fixed i = -((Finset.univ.filter fun j => (i, j) ∈ s.fixed).card : Int) := by
    intro i
    simp only [fixedInRow, ht]
    rw [← Finset.sum_filter, Finset.sum_const]
    simp
  have e2 : ∀ j, fixedInCol s.truth s.fixed j = -((Finset.univ.filter fun i => (i, j) ∈ s.fixed).card : Int) := by
    intro j
    simp only [fixedInCol, ht]
    rw [← Finset.sum_filter, Finset.sum_const]
    simp
  have e3 : fixedTotal s.truth s.fixed = -((Finset.univ.filter fun c : Cell m n => c ∈ s.fixed).card : Int) := by
    simp only [fixedTotal, ht]
    rw [← Fintype.sum_prod_type' (f := fun i j => if (i, j) ∈ s.fixed then (-1 : Int) else 0), ← Finset.sum_filter, Finset.sum_const]
    simp
  simp only [e1, e2, e3, sub_neg_eq_add] at h
  exact h

/-- A partial table: one unknown cell. -/
def partTable : Table 2 2 := ![![3, -1], ![2, 4]]

/-- Draws of the examples: everything in the first row and column. -/
def firstDraws : MarginDraws 2 2 := ⟨10, fun N i => if i = 0 then N else 0, fun N j => if j = 0 then N else 0⟩

example : firstDraws.Sound := by
  refine ⟨by decide, ?_, ?_, ?_, ?_⟩
  · intro N i h; simp only [firstDraws]; split <;> omega
  · intro N i h; simp only [firstDraws]; split <;> omega
  · intro N; simp [firstDraws]
  · intro N; simp [firstDraws]

example : ∃ r, importTabular (some partTable) (fun a => if a = [0, 1] then some [12] else if a = [1] then some [5, 7] else none) firstDraws = some r ∧
    r.2 [0] = some [12, 0] ∧ r.2 [1] = some [5, 7] := by
  refine ⟨_, rfl, ?_⟩
  decide +kernel

/-- **C164 is false**, as a negation: a known, fixed cell keeps its value. -/
theorem C164_false : ¬ ∀ (t : Table 2 2) (given : Margins) (d : MarginDraws 2 2) (r : Option (Table 2 2) × Margins) (i j : Fin 2),
    d.Sound → importTabular (some t) given d = some r → 0 ≤ t i j → ∃ t', r.1 = some t' ∧ t' i j = t i j := by
  intro h
  have hs : firstDraws.Sound := by
    refine ⟨by decide, ?_, ?_, ?_, ?_⟩
    · intro N i h; simp only [firstDraws]; split <;> omega
    · intro N i h; simp only [firstDraws]; split <;> omega
    · intro N; simp [firstDraws]
    · intro N; simp [firstDraws]
  have hr : ∃ r, importTabular (some partTable) (fun _ => none) firstDraws = some r := ⟨_, rfl⟩
  obtain ⟨r, hr⟩ := hr
  obtain ⟨t', h1, h2⟩ := h partTable (fun _ => none) firstDraws r 0 0 hs hr (by decide)
  have hn : ¬ Nonneg partTable := fun hn => absurd (hn 0 1) (by decide)
  rw [(C164_partial_forgotten partTable hn _ _ r hr).1] at h1
  obtain rfl := Option.some.inj h1
  revert h2
  decide

/-! ## C165 -/

/-- `update_table` (lines 712-726) on a table of the right shape. -/
def CT.updateTable {m n : Nat} (s : CT m n) (t : Table m n) : CT m n :=
  { s with truth := t, margins := updateMarginsFromTable t s.margins, residual := updateMarginsFromTable t s.residual }

/-- Storing one margin (`update_margins`, lines 547-555). -/
def setMargin (mg : Margins) (ax : Ax) (l : List Int) : Margins := fun a => if a = ax then some l else mg a

/-- `update_margins(margins)` (lines 547-555). -/
def CT.updateMargins {m n : Nat} (s : CT m n) (new : List (Ax × List Int)) : CT m n :=
  { s with margins := new.foldl (fun mg p => setMargin mg p.1 p.2) s.margins, residual := new.foldl (fun mg p => setMargin mg p.1 p.2) s.residual }

/-- `update_constrained_margins(margins)` (lines 706-710). -/
def CT.updateConstrained {m n : Nat} (s : CT m n) (new : List (Ax × List Int)) : CT m n := s.updateMargins (new.filter fun p => s.constrained.contains p.1)

/-- `update_unconstrained_margins(margins)` (lines 700-704). -/
def CT.updateUnconstrained {m n : Nat} (s : CT m n) (new : List (Ax × List Int)) : CT m n :=
  s.updateMargins (new.filter fun p => (axesComplement 2 s.constrained false).contains p.1)

/-- `update_constrained_margins_from_table`, `update_unconstrained_margins_from_table` (lines 662-687) over the axes `axs`. -/
def CT.updateFromTable {m n : Nat} (s : CT m n) (axs : List Ax) (t : Table m n) : CT m n :=
  s.updateMargins (axs.filterMap fun ax => (axisMargin t ax).map fun l => (ax, l))

/-- The residual margins are the margins minus the fixed cells. -/
def Spec.ResidualRight {m n : Nat} (s : CT m n) : Prop :=
  ∃ row col tot, Stores (m := m) (n := n) s.margins row col tot ∧
    Stores s.residual (fun i => row i - fixedInRow s.truth s.fixed i) (fun j => col j - fixedInCol s.truth s.fixed j) (tot - fixedTotal s.truth s.fixed)

theorem Stores_unique {m n : Nat} {mg : Margins} {r r' : Fin m → Int} {c c' : Fin n → Int} {t t' : Int} (h : Stores mg r c t) (h' : Stores mg r' c' t') :
    r = r' ∧ c = c' ∧ t = t' := by
  have e1 := h.rows; rw [h'.rows, Option.some.injEq] at e1
  have e2 := h.cols; rw [h'.cols, Option.some.injEq] at e2
  have e3 := h.grand; rw [h'.grand, Option.some.injEq] at e3
  exact ⟨(ofFn_inj e1).symm, (ofFn_inj e2).symm, by simpa using e3.symm⟩

/-- **C165 (replacing the table).** The residual margins are right after the table was replaced if and only if the fixed cells of every row, every column and of the whole table add up to
zero in the new table; otherwise the fixed cells are not taken off. -/
theorem C165_table_iff {m n : Nat} (s : CT m n) (t : Table m n) (ht : Nonneg t) :
    Spec.ResidualRight (s.updateTable t) ↔ (∀ i, fixedInRow t s.fixed i = 0) ∧ (∀ j, fixedInCol t s.fixed j = 0) ∧ fixedTotal t s.fixed = 0 := by
  have h1 := (C23_margins_from_table t ht s.margins).1
  have h2 := (C23_margins_from_table t ht s.residual).1
  constructor
  · rintro ⟨row, col, tot, ha, hb⟩
    obtain ⟨rfl, rfl, rfl⟩ := Stores_unique h1 ha
    obtain ⟨e1, e2, e3⟩ := Stores_unique h2 hb
    simp only [CT.updateTable] at e1 e2 e3
    refine ⟨fun i => ?_, fun j => ?_, by omega⟩
    · have := congrFun e1 i; omega
    · have := congrFun e2 j; omega
  · rintro ⟨e1, e2, e3⟩
    refine ⟨_, _, _, h1, ?_⟩
    simp only [CT.updateTable, e1, e2, e3, sub_zero]
    exact h2

/-- **C165 (no fixed cells).** Without fixed cells replacing the table is right. -/
theorem C165_table_partial {m n : Nat} (s : CT m n) (t : Table m n) (ht : Nonneg t) (hf : s.fixed = []) : Spec.ResidualRight (s.updateTable t) := by
  rw [C165_table_iff s t ht]
  simp [fixedInRow, fixedInCol, fixedTotal, hf]

/-- **C165 (consequence).** A sampler that fills the free cells with the residual total and keeps the fixed cells then gets a table whose total is off by the fixed cells. -/
theorem C165_wrong_total {m n : Nat} (s : CT m n) (t x : Table m n) (ht : Nonneg t) (hfix : AgreeAt s.fixed x t) (N : Int)
    (hN : (s.updateTable t).residual [0, 1] = some [N]) (hfree : (∑ i, ∑ j, if (i, j) ∈ s.fixed then 0 else x i j) = N) :
    total x = total t + fixedTotal t s.fixed := by
  have h2 := (C23_margins_from_table t ht s.residual).1.grand
  simp only [CT.updateTable] at hN
  rw [h2] at hN
  obtain rfl : total t = N := by simpa using hN
  unfold total at *
  rw [← hfree, fixedTotal, ← Finset.sum_add_distrib]
  refine Finset.sum_congr rfl fun i _ => ?_
  rw [← Finset.sum_add_distrib]
  refine Finset.sum_congr rfl fun j _ => ?_
  by_cases h : (i, j) ∈ s.fixed
  · simp [h, hfix i j h]
  · simp [h]

/-- The stored value after several margins were set: the last one given. -/
theorem foldl_setMargin (new : List (Ax × List Int)) (mg : Margins) (ax : Ax) :
    new.foldl (fun mg p => setMargin mg p.1 p.2) mg ax = ((new.reverse.find? fun p => p.1 == ax).map Prod.snd).or (mg ax) := by
  induction new using List.reverseRecOn with
  | nil => simp
  | append_singleton new p ih =>
    rw [List.foldl_append, List.reverse_append]
    simp only [List.foldl_cons, List.foldl_nil, List.reverse_cons, List.reverse_nil, List.nil_append, List.singleton_append, List.find?_cons]
    unfold setMargin
    by_cases h : ax = p.1
    · subst h; simp
    · have : (p.1 == ax) = false := by simpa using fun e => h e.symm
      rw [if_neg h, this]
      exact ih

/-- **C165 (margins).** After margins were replaced, the given margins are stored, all others are as before — and the residual margins of the replaced axes are the given margins, whatever
cells are fixed. -/
theorem C165_margins {m n : Nat} (s : CT m n) (new : List (Ax × List Int)) (hk : (new.map Prod.fst).Nodup) (ax : Ax) :
    (∀ l, (ax, l) ∈ new → (s.updateMargins new).margins ax = some l ∧ (s.updateMargins new).residual ax = some l) ∧
      (ax ∉ new.map Prod.fst → (s.updateMargins new).margins ax = s.margins ax ∧ (s.updateMargins new).residual ax = s.residual ax) := by
  have key : ∀ mg : Margins, (∀ l, (ax, l) ∈ new → new.foldl (fun mg p => setMargin mg p.1 p.2) mg ax = some l) ∧
      (ax ∉ new.map Prod.fst → new.foldl (fun mg p => setMargin mg p.1 p.2) mg ax = mg ax) := by
    intro mg
    rw [foldl_setMargin]
    constructor
    · intro l hl
      have hu : ∀ p ∈ new, p.1 = ax → p = (ax, l) := fun p hp h => by
        have := List.inj_on_of_nodup_map hk hp hl (by simpa using h)
        exact this
      cases hf : new.reverse.find? fun p => p.1 == ax with
      | none =>
        rw [List.find?_eq_none] at hf
        exact absurd (by simp) (hf (ax, l) (by simpa using hl))
      | some p =>
        have h1 := List.find?_some hf
        have h2 := List.mem_of_find?_eq_some hf
        rw [hu p (by simpa using h2) (by simpa using h1)]
        simp
    · intro hno
      have : (new.reverse.find? fun p => p.1 == ax) = none := by
        rw [List.find?_eq_none]
        intro p hp hpa
        exact hno (List.mem_map.2 ⟨p, by simpa using hp, by simpa using hpa⟩)
      simp [this]
  exact ⟨fun l hl => ⟨(key s.margins).1 l hl, (key s.residual).1 l hl⟩, fun h => ⟨(key s.margins).2 h, (key s.residual).2 h⟩⟩

/-- **C165 (only what was asked).** Updating constrained margins leaves unconstrained ones alone, and the other way round. -/
theorem C165_only_asked {m n : Nat} (s : CT m n) (new : List (Ax × List Int)) (ax : Ax) :
    (ax ∉ s.constrained → (s.updateConstrained new).margins ax = s.margins ax ∧ (s.updateConstrained new).residual ax = s.residual ax) ∧
      (ax ∈ s.constrained → (s.updateUnconstrained new).margins ax = s.margins ax ∧ (s.updateUnconstrained new).residual ax = s.residual ax) := by
  have key : ∀ (mg : Margins) (q : Ax × List Int → Bool), (∀ p ∈ new, q p = true → p.1 ≠ ax) →
      (new.filter q).foldl (fun mg p => setMargin mg p.1 p.2) mg ax = mg ax := by
    intro mg q h
    rw [foldl_setMargin]
    have : ((new.filter q).reverse.find? fun p => p.1 == ax) = none := by
      rw [List.find?_eq_none]
      intro p hp hpa
      rw [List.mem_reverse, List.mem_filter] at hp
      exact h p hp.1 hp.2 (by simpa using hpa)
    simp [this]
  constructor
  · intro h
    have hq : ∀ p ∈ new, s.constrained.contains p.1 = true → p.1 ≠ ax := by
      intro p _ hp e
      rw [List.contains_iff_mem] at hp
      exact h (e ▸ hp)
    exact ⟨key _ _ hq, key _ _ hq⟩
  · intro h
    have hq : ∀ p ∈ new, (axesComplement 2 s.constrained false).contains p.1 = true → p.1 ≠ ax := by
      intro p _ hp e
      rw [List.contains_iff_mem] at hp
      simp only [axesComplement, Bool.false_eq_true, if_false, List.mem_filter] at hp
      have h2 := hp.2
      rw [e] at h2
      simp [h] at h2
    exact ⟨key _ _ hq, key _ _ hq⟩

/-- **C165 (margins of a table).** Updating the margins over some axes from a table stores its sums over these axes. -/
theorem C165_from_table {m n : Nat} (s : CT m n) (axs : List Ax) (hn : axs.Nodup) (t : Table m n) (ax : Ax) (l : List Int) (hl : axisMargin t ax = some l) :
    (ax ∈ axs → (s.updateFromTable axs t).margins ax = some l ∧ (s.updateFromTable axs t).residual ax = some l) ∧
      (ax ∉ axs → (s.updateFromTable axs t).margins ax = s.margins ax ∧ (s.updateFromTable axs t).residual ax = s.residual ax) := by
  have hmem : ∀ p, p ∈ (axs.filterMap fun ax => (axisMargin t ax).map fun l => (ax, l)) ↔ p.1 ∈ axs ∧ axisMargin t p.1 = some p.2 := by
    rintro ⟨a, b⟩
    simp only [List.mem_filterMap, Option.map_eq_some_iff, Prod.mk.injEq]
    constructor
    · rintro ⟨x, hx, y, hy, rfl, rfl⟩; exact ⟨hx, hy⟩
    · rintro ⟨h1, h2⟩; exact ⟨a, h1, b, h2, rfl, rfl⟩
  have hk : ((axs.filterMap fun ax => (axisMargin t ax).map fun l => (ax, l)).map Prod.fst).Nodup := by
    have : (axs.filterMap fun ax => (axisMargin t ax).map fun l => (ax, l)).map Prod.fst = axs.filter fun ax => (axisMargin t ax).isSome := by
      clear hn hmem
      induction axs with
      | nil => rfl
      | cons a r ih =>
        cases h : axisMargin t a with
        | none => simp [h, ih]
        | some l => simp [h, ih]
    rw [this]
    exact hn.filter _
  obtain ⟨h1, h2⟩ := C165_margins s _ hk ax
  refine ⟨fun h => h1 l ((hmem (ax, l)).2 ⟨h, hl⟩), fun h => h2 ?_⟩
  intro hin
  obtain ⟨p, hp, rfl⟩ := List.mem_map.1 hin
  exact h ((hmem p).1 hp).1

/-- **C165 is false** with fixed cells: the example table of C16 replaced by itself. -/
theorem C165_false : ¬ ∀ (s : CT 3 3) (t : Table 3 3), Nonneg t → Spec.ResidualRight s → AgreeAt s.fixed t s.truth → Spec.ResidualRight (s.updateTable t) := by
  intro h
  have hn : Nonneg exampleCT.truth := by unfold Nonneg; decide +kernel
  have hp : ∃ s', exampleCT.propagate = some s' := ⟨_, rfl⟩
  obtain ⟨s', hp⟩ := hp
  have hst : Stores (m := 3) (n := 3) exampleCT.residual ![8, 7, 3] ![9, 7, 2] 18 := ⟨by decide +kernel, by decide +kernel, by decide +kernel⟩
  have hst' : Stores (m := 3) (n := 3) exampleCT.margins ![8, 7, 3] ![9, 7, 2] 18 := ⟨by decide +kernel, by decide +kernel, by decide +kernel⟩
  obtain ⟨h1, _, h3, h4, h5⟩ := C16_residual_margins exampleCT s' _ _ _ hst (by decide +kernel) rfl hp
  have hr : Spec.ResidualRight s' := ⟨_, _, _, by rw [h4]; exact hst', by rw [h3, h5]; exact h1⟩
  have := (C165_table_iff s' exampleCT.truth hn).1 (h s' exampleCT.truth hn hr (by rw [h5]; intro i j _; rfl))
  rw [h3] at this
  have := this.1 0
  revert this
  decide +kernel

/-! ## C168 -/

/-- What `__eq__` compares of two two-way tables (lines 255-288): the constrained axes and the fixed cells as sets, and the name of the distribution.  Types and numbers of dimensions agree. -/
structure CtKey where
  m : Nat
  n : Nat
  constrained : List Ax
  fixed : List (Nat × Nat)

/-- `__eq__` (lines 255-288). -/
def ctEq (a b : CtKey) : Bool :=
  (a.constrained.all b.constrained.contains && b.constrained.all a.constrained.contains) && (distributionName a.constrained == distributionName b.constrained) &&
    (a.fixed.all b.fixed.contains && b.fixed.all a.fixed.contains)

/-- Taking over a Markov basis (`ContingencyTable_MCMC.py:70-79`): the moves of the basis if the tables compare equal, `none` if it is refused. -/
def takeBasis {M : Type} (own other : CtKey) (moves : List M) : Option (List M) := if ctEq other own then some moves else none

theorem all_contains_iff {α : Type} [BEq α] [LawfulBEq α] (a b : List α) : a.all b.contains = true ↔ ∀ x ∈ a, x ∈ b := by
  simp [List.all_eq_true]

theorem distributionName_congr (a b : List Ax) (ha : a.Nodup) (hb : b.Nodup) (h : ∀ x, x ∈ a ↔ x ∈ b) : distributionName a = distributionName b := by
  have hp : a.Perm b := (List.perm_ext_iff_of_nodup ha hb).2 h
  simp only [distributionName]
  rw [hp.length_eq, ((hp.filter _).dedup).length_eq]

/-- **C168 (what is accepted).** A Markov basis is taken over exactly if it was made for a table with the same constrained axes and the same fixed cells; the sizes of the tables do not
matter. -/
theorem C168_accepted_iff {M : Type} (own other : CtKey) (h1 : own.constrained.Nodup) (h2 : other.constrained.Nodup) (moves : List M) :
    takeBasis own other moves = some moves ↔ (∀ x, x ∈ other.constrained ↔ x ∈ own.constrained) ∧ ∀ c, c ∈ other.fixed ↔ c ∈ own.fixed := by
  unfold takeBasis
  have : ctEq other own = true ↔ (∀ x, x ∈ other.constrained ↔ x ∈ own.constrained) ∧ ∀ c, c ∈ other.fixed ↔ c ∈ own.fixed := by
    unfold ctEq
    simp only [Bool.and_eq_true, all_contains_iff, beq_iff_eq]
    constructor
    · rintro ⟨⟨⟨a1, a2⟩, _⟩, a3, a4⟩
      exact ⟨fun x => ⟨a1 x, a2 x⟩, fun c => ⟨a3 c, a4 c⟩⟩
    · rintro ⟨a, b⟩
      exact ⟨⟨⟨fun x => (a x).1, fun x => (a x).2⟩, distributionName_congr _ _ h2 h1 a⟩, fun c => (b c).1, fun c => (b c).2⟩
  by_cases h : ctEq other own = true
  · simp only [h, if_true, true_iff]; exact this.1 h
  · rw [if_neg h]; simp only [reduceCtorEq, false_iff]; exact fun hc => h (this.2 hc)

/-- A move, by cells of any table. -/
abbrev FreeMove := List ((Nat × Nat) × Int)

/-- Adding a multiple of a move to a table, as the samplers do. -/
def addMove {m n : Nat} (t : Table m n) (k : Int) (mv : FreeMove) : Table m n := fun i j => t i j + k * ((mv.filter fun p => p.1 = (i.val, j.val)).map Prod.snd).sum

/-- All tables reachable with a list of moves. -/
inductive Reachable {m n : Nat} (moves : List FreeMove) (t : Table m n) : Table m n → Prop
  | refl : Reachable moves t t
  | step {u : Table m n} (k : Int) (mv : FreeMove) (hm : mv ∈ moves) (h : Reachable moves t u) : Reachable moves t (addMove u k mv)

/-- **C168 (sizes).** Cells outside the table for which the basis was made never change. -/
theorem C168_outside_fixed {m n : Nat} (moves : List FreeMove) (m' n' : Nat) (hin : ∀ mv ∈ moves, ∀ p ∈ mv, p.1.1 < m' ∧ p.1.2 < n') (t u : Table m n)
    (h : Reachable moves t u) (i : Fin m) (j : Fin n) (ho : m' ≤ i ∨ n' ≤ j) : u i j = t i j := by
  induction h with
  | refl => rfl
  | step k mv hm _ ih =>
    unfold addMove
    have : mv.filter (fun p => p.1 = (i.val, j.val)) = [] := by
      rw [List.filter_eq_nil_iff]
      intro p hp hpe
      have := hin mv hm p hp
      simp only [decide_eq_true_eq] at hpe
      rw [hpe] at this
      omega
    rw [this, ih]
    simp

/-- The basis of doubly constrained two-by-two tables: one move. -/
def basis22 : List FreeMove := [[((0, 0), 1), ((0, 1), -1), ((1, 0), -1), ((1, 1), 1)]]

/-- The doubly constrained tables without fixed cells. -/
def doublyKey (m n : Nat) : CtKey := ⟨m, n, [[0], [0, 1], [1]], []⟩

/-- **C168 is false**: the basis of two-by-two tables is taken over by a three-by-three table with the same constraints, and with it two tables with the same margins are not connected. -/
theorem C168_false : takeBasis (doublyKey 3 3) (doublyKey 2 2) basis22 = some basis22 ∧
    ∃ t u : Table 3 3, Nonneg t ∧ Nonneg u ∧ rowSum t = rowSum u ∧ colSum t = colSum u ∧ ¬ Reachable basis22 t u := by
  refine ⟨by decide +kernel, ![![1, 1, 1], ![1, 1, 1], ![1, 1, 1]], ![![1, 1, 1], ![1, 0, 2], ![1, 2, 0]], ?_, ?_, ?_, ?_, ?_⟩
  · unfold Nonneg; decide +kernel
  · unfold Nonneg; decide +kernel
  · funext i; revert i; decide +kernel
  · funext i; revert i; decide +kernel
  · intro h
    have := C168_outside_fixed basis22 2 2 (by decide +kernel) _ _ h 2 2 (by decide)
    revert this
    decide

end GeNSIT
