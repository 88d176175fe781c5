import Verif.Table.Build

/-!
# C166: sampled and initialised margins

`sample_constrained_margins`, `sample_unconstrained_margins` (`gensit/contingency_table/ContingencyTable_MCMC.py:193-247`), `initialise_constrained_margins`,
`initialise_unconstrained_margins` (lines 249-273) with `margin_multinomial` (`gensit/contingency_table/__init__.py:900-927`).

Simplifications: two-way tables, integer margins; a draw for an axis is a function of the total it is drawn for.  `margin_multinomial` raises unless sparse margins are allowed and an
intensity is given (`torch.all` of a numpy array, `dim` of a numpy sum); the model of the initialisation is of runs in which it does not.
-/

namespace GeNSIT

open Spec

/-- `sorted(axes, key = len, reverse = True)` for axes of length one and two: a stable sort puts the pairs first. -/
def longestFirst (axes : List Ax) : List Ax := axes.filter (fun a => a.length == 2) ++ axes.filter fun a => a.length == 1

/-- The margin drawn for an axis (`ContingencyTable_MCMC.py:208-236`): the total is a Poisson draw, or the truncated total intensity if it is a constraint (`fixedTotal`); a row or
column margin is a multinomial draw for the total *stored in the table*. -/
def drawMargin {m n : Nat} (stored : Margins) (fixedTotal : Option Int) (d : MarginDraws m n) (ax : Ax) : Option (List Int) :=
  if ax = [0, 1] then some [fixedTotal.getD d.total]
  else if ax = [0] then (stored [0, 1]).map fun l => List.ofFn (d.cols (l.headD 0))
  else if ax = [1] then (stored [0, 1]).map fun l => List.ofFn (d.rows (l.headD 0))
  else none

/-- The loop of `sample_margins_2way_table`: all margins are drawn first, then stored (line 239). -/
def sampleMargins {m n : Nat} (stored : Margins) (axes : List Ax) (fixedTotal : Option Int) (d : MarginDraws m n) : Option Margins :=
  (longestFirst axes).foldlM (fun mg ax => (drawMargin stored fixedTotal d ax).map (setMargin mg ax)) stored

/-- The loop of `initialise_unconstrained_margins`: each margin is stored before the next is drawn (lines 258-262). -/
def initialiseMargins {m n : Nat} (stored : Margins) (axes : List Ax) (d : MarginDraws m n) : Option Margins :=
  (longestFirst axes).foldlM (fun mg ax => (drawMargin mg none d ax).map (setMargin mg ax)) stored

/-- Margins of one table: rows and columns add up to the total. -/
def Spec.Consistent (m n : Nat) (mg : Margins) : Prop := ∃ row col tot, Stores (m := m) (n := n) mg row col tot ∧ ∑ i, row i = tot ∧ ∑ j, col j = tot

theorem sample_fold {m n : Nat} (stored : Margins) (N : Int) (hN : stored [0, 1] = some [N]) (ft : Option Int) (d : MarginDraws m n) (L : List Ax) (hL : TwoWay L)
    (mg : Margins) : ∃ mg', L.foldlM (fun mg ax => (drawMargin stored ft d ax).map (setMargin mg ax)) mg = some mg' ∧
      mg' [0, 1] = (if [0, 1] ∈ L then some [ft.getD d.total] else mg [0, 1]) ∧ mg' [0] = (if [0] ∈ L then some (List.ofFn (d.cols N)) else mg [0]) ∧
      mg' [1] = (if [1] ∈ L then some (List.ofFn (d.rows N)) else mg [1]) := by
  induction L generalizing mg with
  | nil => exact ⟨mg, rfl, by simp⟩
  | cons a L ih =>
    have ht : TwoWay L := fun x hx => hL x (by simp [hx])
    rcases hL a (by simp) with rfl | rfl | rfl
    · obtain ⟨mg', h1, h2, h3, h4⟩ := ih ht (setMargin mg [0] (List.ofFn (d.cols N)))
      refine ⟨mg', ?_, ?_, ?_, ?_⟩
      · simpa [drawMargin, hN] using h1
      · rw [h2]; simp [setMargin]
      · rw [h3]; simp [setMargin]
      · rw [h4]; simp [setMargin]
    · obtain ⟨mg', h1, h2, h3, h4⟩ := ih ht (setMargin mg [1] (List.ofFn (d.rows N)))
      refine ⟨mg', ?_, ?_, ?_, ?_⟩
      · simpa [drawMargin, hN] using h1
      · rw [h2]; simp [setMargin]
      · rw [h3]; simp [setMargin]
      · rw [h4]; simp [setMargin]
    · obtain ⟨mg', h1, h2, h3, h4⟩ := ih ht (setMargin mg [0, 1] [ft.getD d.total])
      refine ⟨mg', ?_, ?_, ?_, ?_⟩
      · simpa [drawMargin, hN] using h1
      · rw [h2]; simp [setMargin]
      · rw [h3]; simp [setMargin]
      · rw [h4]; simp [setMargin]

theorem mem_longestFirst {axes : List Ax} (h : TwoWay axes) (a : Ax) : a ∈ longestFirst axes ↔ a ∈ axes := by
  unfold longestFirst
  simp only [List.mem_append, List.mem_filter, beq_iff_eq]
  constructor
  · rintro (h | h) <;> exact h.1
  · intro ha
    rcases h a ha with rfl | rfl | rfl
    · exact .inr ⟨ha, rfl⟩
    · exact .inr ⟨ha, rfl⟩
    · exact .inl ⟨ha, rfl⟩

/-- **C166 (given total).** Row and column margins sampled for a table whose total is not sampled fit the stored total. -/
theorem C166_given_total_partial {m n : Nat} (stored : Margins) (hc : Spec.Consistent m n stored) (axes : List Ax) (h2 : TwoWay axes) (hnt : [0, 1] ∉ axes)
    (ft : Option Int) (d : MarginDraws m n) (hd : d.Sound) : ∃ mg, sampleMargins stored axes ft d = some mg ∧ Spec.Consistent m n mg ∧ mg [0, 1] = stored [0, 1] := by
  obtain ⟨row, col, N, hs, hr, hcol⟩ := hc
  obtain ⟨mg, h1, e01, e0, e1⟩ := sample_fold stored N hs.grand ft d (longestFirst axes) (fun a ha => h2 a ((mem_longestFirst h2 a).1 ha)) stored
  simp only [mem_longestFirst h2, hnt, if_false] at e01 e0 e1
  refine ⟨mg, h1, ⟨if [1] ∈ axes then d.rows N else row, if [0] ∈ axes then d.cols N else col, N, ⟨?_, ?_, ?_⟩, ?_, ?_⟩, e01⟩
  · rw [e1]; split <;> [rfl; exact hs.rows]
  · rw [e0]; split <;> [rfl; exact hs.cols]
  · rw [e01]; exact hs.grand
  · split <;> [exact hd.rows_sum N; exact hr]
  · split <;> [exact hd.cols_sum N; exact hcol]

/-- **C166 (sampled total, exact).** If the total is sampled with the row and column margins, these are drawn for the total stored *before*: the sampled margins fit together if and only
if the sampled total happens to be the old one. -/
theorem C166_sampled_iff {m n : Nat} (stored : Margins) (N : Int) (hN : stored [0, 1] = some [N]) (axes : List Ax) (h2 : TwoWay axes)
    (h0 : [0] ∈ axes) (h1 : [1] ∈ axes) (h01 : [0, 1] ∈ axes) (ft : Option Int) (d : MarginDraws m n) (hd : d.Sound) :
    ∃ mg, sampleMargins stored axes ft d = some mg ∧ (Spec.Consistent m n mg ↔ ft.getD d.total = N) := by
  obtain ⟨mg, e, e01, e0, e1⟩ := sample_fold stored N hN ft d (longestFirst axes) (fun a ha => h2 a ((mem_longestFirst h2 a).1 ha)) stored
  simp only [mem_longestFirst h2, h0, h1, h01, if_true] at e01 e0 e1
  have hs : Stores mg (d.rows N) (d.cols N) (ft.getD d.total) := ⟨e1, e0, e01⟩
  refine ⟨mg, e, ?_⟩
  constructor
  · rintro ⟨row, col, tot, hs', hr, _⟩
    obtain ⟨rfl, rfl, rfl⟩ := Stores_unique hs hs'
    rw [← hr, hd.rows_sum]
  · intro h
    exact ⟨_, _, _, hs, by rw [hd.rows_sum, h], by rw [hd.cols_sum, h]⟩

theorem init_fold {m n : Nat} (N : Int) (d : MarginDraws m n) (L : List Ax) (hL : ∀ a ∈ L, a = [0] ∨ a = [1]) (mg : Margins) (hN : mg [0, 1] = some [N]) :
    ∃ mg', L.foldlM (fun mg ax => (drawMargin mg none d ax).map (setMargin mg ax)) mg = some mg' ∧
      mg' [0, 1] = some [N] ∧ mg' [0] = (if [0] ∈ L then some (List.ofFn (d.cols N)) else mg [0]) ∧
      mg' [1] = (if [1] ∈ L then some (List.ofFn (d.rows N)) else mg [1]) := by
  induction L generalizing mg with
  | nil => exact ⟨mg, rfl, hN, by simp⟩
  | cons a L ih =>
    have ht : ∀ a ∈ L, a = [0] ∨ a = [1] := fun x hx => hL x (by simp [hx])
    rcases hL a (by simp) with rfl | rfl
    · obtain ⟨mg', h1, h2, h3, h4⟩ := ih ht (setMargin mg [0] (List.ofFn (d.cols N))) (by simpa [setMargin] using hN)
      refine ⟨mg', ?_, h2, ?_, ?_⟩
      · simpa [drawMargin, hN] using h1
      · rw [h3]; simp [setMargin]
      · rw [h4]; simp [setMargin]
    · obtain ⟨mg', h1, h2, h3, h4⟩ := ih ht (setMargin mg [1] (List.ofFn (d.rows N))) (by simpa [setMargin] using hN)
      refine ⟨mg', ?_, h2, ?_, ?_⟩
      · simpa [drawMargin, hN] using h1
      · rw [h3]; simp [setMargin]
      · rw [h4]; simp [setMargin]

/-- **C166 (initialised).** Margins initialised one after the other fit together: the total is drawn first and the others for it.  If the total is drawn, rows and columns must be too
(they are: what is unconstrained with the total unconstrained is everything, C18). -/
theorem C166_initialised {m n : Nat} (stored : Margins) (hc : Spec.Consistent m n stored) (axes : List Ax) (h2 : TwoWay axes)
    (hall : [0, 1] ∈ axes → [0] ∈ axes ∧ [1] ∈ axes) (hn : axes.Nodup) (d : MarginDraws m n) (hd : d.Sound) :
    ∃ mg, initialiseMargins stored axes d = some mg ∧ Spec.Consistent m n mg := by
  obtain ⟨row, col, N, hs, hr, hcol⟩ := hc
  set L1 := axes.filter fun a => a.length == 1 with hL1
  have m0 : [0] ∈ L1 ↔ [0] ∈ axes := by simp [hL1]
  have m1 : [1] ∈ L1 ↔ [1] ∈ axes := by simp [hL1]
  have hl1 : ∀ a ∈ L1, a = [0] ∨ a = [1] := by
    intro a ha
    rw [hL1, List.mem_filter] at ha
    rcases h2 a ha.1 with rfl | rfl | rfl
    · exact .inl rfl
    · exact .inr rfl
    · simp at ha
  by_cases ht : [0, 1] ∈ axes
  · have hf : axes.filter (fun a => a.length == 2) = [[0, 1]] := by
      have hnd : (axes.filter fun a => a.length == 2).Nodup := hn.filter _
      have hm : ∀ a, a ∈ axes.filter (fun a => a.length == 2) ↔ a ∈ [[0, 1]] := by
        intro a
        simp only [List.mem_filter, beq_iff_eq, List.mem_singleton]
        constructor
        · rintro ⟨ha, hl⟩
          rcases h2 a ha with rfl | rfl | rfl
          · simp at hl
          · simp at hl
          · rfl
        · rintro rfl; exact ⟨ht, rfl⟩
      exact List.perm_singleton.1 ((List.perm_ext_iff_of_nodup hnd (by simp)).2 hm)
    obtain ⟨mg, e, e01, e0, e1⟩ := init_fold d.total d L1 hl1 (setMargin stored [0, 1] [d.total]) (by simp [setMargin])
    rw [if_pos (m0.2 (hall ht).1)] at e0
    rw [if_pos (m1.2 (hall ht).2)] at e1
    refine ⟨mg, ?_, d.rows d.total, d.cols d.total, d.total, ⟨e1, e0, e01⟩, hd.rows_sum _, hd.cols_sum _⟩
    unfold initialiseMargins longestFirst
    rw [hf, ← hL1]
    simpa [drawMargin] using e
  · have hf : axes.filter (fun a => a.length == 2) = [] := by
      rw [List.filter_eq_nil_iff]
      intro a ha hl
      rcases h2 a ha with rfl | rfl | rfl
      · simp at hl
      · simp at hl
      · exact ht ha
    obtain ⟨mg, e, e01, e0, e1⟩ := init_fold N d L1 hl1 stored hs.grand
    simp only [m0] at e0
    simp only [m1] at e1
    refine ⟨mg, ?_, if [1] ∈ axes then d.rows N else row, if [0] ∈ axes then d.cols N else col, N, ⟨?_, ?_, e01⟩, ?_, ?_⟩
    · unfold initialiseMargins longestFirst
      rw [hf, ← hL1]
      exact e
    · rw [e1]; split <;> [rfl; exact hs.rows]
    · rw [e0]; split <;> [rfl; exact hs.cols]
    · split <;> [exact hd.rows_sum N; exact hr]
    · split <;> [exact hd.cols_sum N; exact hcol]

theorem firstDraws_sound : firstDraws.Sound := by
  refine ⟨by decide, ?_, ?_, ?_, ?_⟩
  · intro N i h; simp only [firstDraws]; split <;> omega
  · intro N i h; simp only [firstDraws]; split <;> omega
  · intro N; simp [firstDraws]
  · intro N; simp [firstDraws]

/-- Stored margins of the examples: a table with seven trips. -/
def sevenMargins : Margins := fun a => if a = [0, 1] then some [7] else if a = [0] then some [3, 4] else if a = [1] then some [2, 5] else none

theorem sevenMargins_consistent : Spec.Consistent 2 2 sevenMargins :=
  ⟨![2, 5], ![3, 4], 7, ⟨by decide +kernel, by decide +kernel, by decide +kernel⟩, by decide, by decide⟩

/-- **C166 is false** when the total is sampled: a total of ten is drawn, rows and columns add up to the seven of before. -/
theorem C166_false : ¬ ∀ (stored : Margins) (d : MarginDraws 2 2), Spec.Consistent 2 2 stored → d.Sound →
    ∃ mg, sampleMargins stored (axesComplement 2 [] false) none d = some mg ∧ Spec.Consistent 2 2 mg := by
  intro h
  obtain ⟨mg, h1, h2⟩ := h sevenMargins firstDraws sevenMargins_consistent firstDraws_sound
  obtain ⟨mg', e, hiff⟩ := C166_sampled_iff sevenMargins 7 (by decide +kernel) (axesComplement 2 [] false) (by unfold TwoWay; decide +kernel) (by decide +kernel)
    (by decide +kernel) (by decide +kernel) none firstDraws firstDraws_sound
  rw [h1, Option.some.injEq] at e
  subst e
  exact absurd (hiff.1 h2) (by decide)

example : ∃ mg, initialiseMargins sevenMargins (axesComplement 2 [] false) firstDraws = some mg ∧ mg [0, 1] = some [10] ∧ mg [0] = some [10, 0] := by
  refine ⟨_, rfl, ?_⟩
  decide +kernel

example : ∃ mg, sampleMargins sevenMargins [[0]] none firstDraws = some mg ∧ mg [0, 1] = some [7] ∧ mg [0] = some [7, 0] ∧ mg [1] = some [2, 5] := by
  refine ⟨_, rfl, ?_⟩
  decide +kernel

end GeNSIT
