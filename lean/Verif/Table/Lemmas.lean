import Verif.Table.Spec

namespace GeNSIT

open Spec

/-! ### combinations and axes -/

theorem mem_combinations {α : Type} (r : Nat) (s l : List α) :
    l ∈ combinations r s ↔ l.Sublist s ∧ l.length = r := by
  induction s generalizing r l with
  | nil =>
    cases r with
    | zero => simp [combinations]
    | succ r =>
      simp only [combinations, List.not_mem_nil, List.sublist_nil, false_iff]
      rintro ⟨rfl, h⟩; simp at h
  | cons x xs ih =>
    cases r with
    | zero =>
      simp only [combinations, List.mem_singleton]
      constructor
      · rintro rfl; simp
      · rintro ⟨_, h⟩; exact List.length_eq_zero_iff.mp h
    | succ r =>
      simp only [combinations, List.mem_append, List.mem_map, ih]
      constructor
      · rintro (⟨a, ⟨h1, h2⟩, rfl⟩ | ⟨h1, h2⟩)
        · exact ⟨h1.cons_cons x, by simp [h2]⟩
        · exact ⟨h1.cons x, h2⟩
      · rintro ⟨h1, h2⟩
        cases h1 with
        | cons _ h => exact Or.inr ⟨h, h2⟩
        | cons_cons _ h => exact Or.inl ⟨_, ⟨h, by simpa using h2⟩, rfl⟩

theorem mem_allAxes (d : Nat) (a : Ax) : a ∈ allAxes d ↔ a.Sublist (List.range d) ∧ a ≠ [] := by
  simp only [allAxes, List.mem_flatMap, List.mem_range'_1, mem_combinations]
  constructor
  · rintro ⟨r, ⟨h1, h2⟩, h3, h4⟩
    refine ⟨h3, ?_⟩
    rintro rfl; simp at h4; omega
  · rintro ⟨h1, h2⟩
    have hl := h1.length_le
    simp only [List.length_range] at hl
    have : 0 < a.length := List.length_pos_iff.mpr h2
    exact ⟨a.length, ⟨by omega, by omega⟩, h1, rfl⟩

theorem allAxes_length_le {d : Nat} {a : Ax} (h : a ∈ allAxes d) : a.length ≤ d := by
  have := ((mem_allAxes d a).mp h).1.length_le
  simpa using this

theorem mem_sortAxes (l : List Ax) (a : Ax) : a ∈ sortAxes l ↔ a ∈ l :=
  (List.perm_insertionSort _ l).mem_iff

theorem tupleContained_iff (s l : Ax) : tupleContained s l = true ↔ s ⊆ l := by
  simp only [tupleContained, List.all_eq_true, List.contains_iff_mem]; rfl

theorem inferInner_mem (cs : List Ax) (ax : Ax) (acc : List Ax) (x : Ax) :
    x ∈ cs.foldl (fun acc' cax => if tupleContained cax ax then acc'.insert ax else acc') acc ↔
      x ∈ acc ∨ (x = ax ∧ ∃ c ∈ cs, c ⊆ ax) := by
  induction cs generalizing acc with
  | nil => simp
  | cons c cs ih =>
    simp only [List.foldl_cons, ih]
    by_cases h : tupleContained c ax = true
    · simp only [h, if_true, List.mem_insert_iff]
      have h' := (tupleContained_iff c ax).mp h
      constructor
      · rintro ((h1 | h1) | h1)
        · exact Or.inr ⟨h1, c, by simp, h'⟩
        · exact Or.inl h1
        · exact Or.inr ⟨h1.1, by obtain ⟨d, hd, hs⟩ := h1.2; exact ⟨d, by simp [hd], hs⟩⟩
      · rintro (h1 | ⟨h1, h2⟩)
        · exact Or.inl (Or.inr h1)
        · exact Or.inl (Or.inl h1)
    · have h' : ¬ c ⊆ ax := fun hc => h ((tupleContained_iff c ax).mpr hc)
      simp only [h, Bool.false_eq_true, if_false]
      constructor
      · rintro (h1 | ⟨h1, d, hd, hs⟩)
        · exact Or.inl h1
        · exact Or.inr ⟨h1, d, by simp [hd], hs⟩
      · rintro (h1 | ⟨h1, d, hd, hs⟩)
        · exact Or.inl h1
        · refine Or.inr ⟨h1, d, ?_, hs⟩
          rcases List.mem_cons.mp hd with rfl | hd
          · exact absurd hs h'
          · exact hd

theorem inferOuter_mem (al : List Ax) (cs acc : List Ax) (x : Ax) :
    x ∈ al.foldl (fun acc ax =>
        cs.foldl (fun acc' cax => if tupleContained cax ax then acc'.insert ax else acc') acc) acc ↔
      x ∈ acc ∨ (x ∈ al ∧ ∃ c ∈ cs, c ⊆ x) := by
  induction al generalizing acc with
  | nil => simp
  | cons a al ih =>
    simp only [List.foldl_cons, ih, inferInner_mem]
    constructor
    · rintro ((h | ⟨rfl, h⟩) | ⟨h1, h2⟩)
      · exact Or.inl h
      · exact Or.inr ⟨by simp, h⟩
      · exact Or.inr ⟨by simp [h1], h2⟩
    · rintro (h | ⟨h1, h2⟩)
      · exact Or.inl (Or.inl h)
      · rcases List.mem_cons.mp h1 with rfl | h1
        · exact Or.inl (Or.inr ⟨rfl, h2⟩)
        · exact Or.inr ⟨h1, h2⟩

theorem inferStage_mem (d : Nat) (axes : List Ax) (k : Nat) (x : Ax) :
    x ∈ inferStage d axes k ↔
      x ∈ axes ∨ (x ∈ allAxes d ∧ k ≤ x.length ∧ ∃ c ∈ axes, c.length = k ∧ c ⊆ x) := by
  simp only [inferStage, inferOuter_mem, List.mem_filter, decide_eq_true_eq, beq_iff_eq]
  constructor
  · rintro (h | ⟨⟨h1, h2⟩, c, ⟨h3, h4⟩, h5⟩)
    · exact Or.inl h
    · exact Or.inr ⟨h1, h2, c, h3, h4, h5⟩
  · rintro (h | ⟨h1, h2, c, h3, h4, h5⟩)
    · exact Or.inl h
    · exact Or.inr ⟨⟨h1, h2⟩, c, ⟨h3, h4⟩, h5⟩

theorem inferFold_mono (d : Nat) (ks : List Nat) (axes : List Ax) (x : Ax) (h : x ∈ axes) :
    x ∈ ks.foldl (inferStage d) axes := by
  induction ks generalizing axes with
  | nil => exact h
  | cons k ks ih => exact ih _ ((inferStage_mem d axes k x).mpr (Or.inl h))

theorem inferFold_sound (d : Nat) (ks : List Nat) (axes : List Ax) (x : Ax)
    (h : x ∈ ks.foldl (inferStage d) axes) : x ∈ axes ∨ (x ∈ allAxes d ∧ ∃ c ∈ axes, c ⊆ x) := by
  induction ks generalizing axes with
  | nil => exact Or.inl h
  | cons k ks ih =>
    rcases ih _ h with h1 | ⟨h1, c, h2, h3⟩
    · rcases (inferStage_mem d axes k x).mp h1 with h | ⟨h, _, c, hc, _, hs⟩
      · exact Or.inl h
      · exact Or.inr ⟨h, c, hc, hs⟩
    · rcases (inferStage_mem d axes k c).mp h2 with h | ⟨_, _, c', hc, _, hs⟩
      · exact Or.inr ⟨h1, c, h, h3⟩
      · exact Or.inr ⟨h1, c', hc, fun y hy => h3 (hs hy)⟩

theorem inferFold_complete (d : Nat) (ks : List Nat) (axes : List Ax) (c x : Ax) (hc : c ∈ axes)
    (hk : c.length ∈ ks) (hx : x ∈ allAxes d) (hl : c.length ≤ x.length) (hs : c ⊆ x) :
    x ∈ ks.foldl (inferStage d) axes := by
  induction ks generalizing axes with
  | nil => simp at hk
  | cons k ks ih =>
    rcases List.mem_cons.mp hk with h | h
    · exact inferFold_mono d ks _ x ((inferStage_mem d axes k x).mpr (Or.inr ⟨hx, h ▸ hl, c, hc, h, hs⟩))
    · exact ih _ ((inferStage_mem d axes k c).mpr (Or.inl hc)) h

theorem allAxes_nodup {d : Nat} {a : Ax} (h : a ∈ allAxes d) : a.Nodup :=
  ((mem_allAxes d a).mp h).1.nodup List.nodup_range

theorem subset_length_le {c x : Ax} (hc : c.Nodup) (h : c ⊆ x) : c.length ≤ x.length :=
  (hc.subperm h).length_le

theorem allAxes_full {d : Nat} {a : Ax} (h : a ∈ allAxes d) (hl : a.length = d) : a = List.range d :=
  ((mem_allAxes d a).mp h).1.eq_of_length (by simpa using hl)

/-! ### margins -/

theorem sortAxes_two : sortAxes (allAxes 2) = [[0], [0, 1], [1]] := by decide +kernel

theorem ofFn_set {k : Nat} (f : Fin k → Int) (i : Fin k) (v : Int) :
    (List.ofFn f).set i.val v = List.ofFn (fun a => if a = i then v else f a) := by
  apply List.ext_getElem
  · simp
  · intro a h1 h2
    simp only [List.length_set, List.length_ofFn] at h1
    simp only [List.getElem_set, List.getElem_ofFn]
    by_cases h : i.val = a
    · subst h; simp
    · have : (⟨a, h1⟩ : Fin k) ≠ i := fun he => h (by rw [← he])
      simp [h, this]

theorem ofFn_inj {k : Nat} {f g : Fin k → Int} (h : List.ofFn f = List.ofFn g) : f = g :=
  List.ofFn_injective h

/-- Concatenations of equal-length pieces are equal iff the pieces are. -/
theorem catMargins_eq_iff (f g : Ax → Option (List Int)) (as : List Ax)
    (h : ∀ a ∈ as, ∃ x y, f a = some x ∧ g a = some y ∧ x.length = y.length) :
    ∃ s r, catMargins f as = some s ∧ catMargins g as = some r ∧
      (s = r ↔ ∀ a ∈ as, f a = g a) ∧ s.length = r.length := by
  induction as with
  | nil => exact ⟨[], [], rfl, rfl, by simp, rfl⟩
  | cons a as ih =>
    obtain ⟨s, r, hs, hr, hiff, hl⟩ := ih (fun b hb => h b (by simp [hb]))
    obtain ⟨x, y, hx, hy, hxy⟩ := h a (by simp)
    refine ⟨x ++ s, y ++ r, by simp [catMargins, hx, hs], by simp [catMargins, hy, hr], ?_, by simp [hxy, hl]⟩
    constructor
    · intro he
      obtain ⟨h1, h2⟩ := List.append_inj he hxy
      intro b hb
      rcases List.mem_cons.mp hb with rfl | hb
      · rw [hx, hy, h1]
      · exact hiff.mp h2 b hb
    · intro he
      have h1 := he a (by simp)
      rw [hx, hy] at h1
      rw [Option.some.inj h1, hiff.mpr (fun b hb => he b (by simp [hb]))]

theorem axisMargin_eq_iff {m n : Nat} {mg : Margins} {row : Fin m → Int} {col : Fin n → Int} {tot : Int}
    (h : Stores mg row col tot) (t : Table m n) :
    (axisMargin t [1] = mg [1] ↔ ∀ i, rowSum t i = row i) ∧
    (axisMargin t [0] = mg [0] ↔ ∀ j, colSum t j = col j) ∧
    (axisMargin t [0, 1] = mg [0, 1] ↔ total t = tot) := by
  refine ⟨?_, ?_, ?_⟩
  · rw [h.rows]; simp only [axisMargin, Option.some.injEq]
    exact ⟨fun e i => congrFun (ofFn_inj e) i, fun e => congrArg _ (funext e)⟩
  · rw [h.cols]; simp only [axisMargin, Option.some.injEq]
    exact ⟨fun e i => congrFun (ofFn_inj e) i, fun e => congrArg _ (funext e)⟩
  · rw [h.grand]; simp only [axisMargin, Option.some.injEq, List.cons.injEq, and_true]; rfl

theorem stores_pieces {m n : Nat} {mg : Margins} {row : Fin m → Int} {col : Fin n → Int} {tot : Int}
    (h : Stores mg row col tot) (t : Table m n) {a : Ax} (ha : a = [0] ∨ a = [1] ∨ a = [0, 1]) :
    ∃ x y, axisMargin t a = some x ∧ mg a = some y ∧ x.length = y.length := by
  rcases ha with rfl | rfl | rfl
  · exact ⟨_, _, rfl, h.cols, by simp⟩
  · exact ⟨_, _, rfl, h.rows, by simp⟩
  · exact ⟨_, _, rfl, h.grand, by simp⟩

theorem tableMarginsAdmissible_spec {m n : Nat} {mg : Margins} {row : Fin m → Int} {col : Fin n → Int}
    {tot : Int} (h : Stores mg row col tot) (constrained : List Ax) (hc : TwoWay constrained) (t : Table m n) :
    ∃ b, tableMarginsAdmissible mg constrained t = some b ∧
      (b = true ↔ ∀ a ∈ constrained, axisMargin t a = mg a) := by
  unfold tableMarginsAdmissible
  by_cases h0 : 0 < constrained.length
  · simp only [h0, if_true, constrainedStatistic]
    obtain ⟨s, r, hs, hr, hiff, _⟩ := catMargins_eq_iff (axisMargin t) mg (sortAxes constrained)
      (fun a ha => stores_pieces h t (hc a ((mem_sortAxes _ _).mp ha)))
    refine ⟨s == r, by simp [hs, hr], ?_⟩
    rw [beq_iff_eq, hiff]
    simp only [mem_sortAxes]
  · have : constrained = [] := by
      cases constrained with
      | nil => rfl
      | cons _ _ => simp at h0
    subst this
    exact ⟨true, by simp, by simp⟩

/-! ### cells -/

theorem mem_allCells {m n : Nat} (c : Cell m n) : c ∈ allCells m n := by
  obtain ⟨i, j⟩ := c
  simp [allCells]

theorem constraintTable_fold {m n : Nat} (truth : Table m n) (fixed : List (Cell m n)) (t0 : Table m n)
    (i : Fin m) (j : Fin n) :
    fixed.foldl (fun tab c => fun i j => if (i, j) = c then truth c.1 c.2 else tab i j) t0 i j =
      if (i, j) ∈ fixed then truth i j else t0 i j := by
  induction fixed generalizing t0 with
  | nil => simp
  | cons c cs ih =>
    simp only [List.foldl_cons, ih, List.mem_cons]
    by_cases h1 : (i, j) ∈ cs
    · simp [h1]
    · by_cases h2 : (i, j) = c
      · subst h2; simp
      · simp [h1, h2]

theorem constraintTable_apply {m n : Nat} (truth : Table m n) (fixed : List (Cell m n)) (i : Fin m)
    (j : Fin n) : constraintTable truth fixed i j = if (i, j) ∈ fixed then truth i j else -1 := by
  simp only [constraintTable, constraintTable_fold]

/-- Effect of subtracting one cell from all three margins. -/
theorem subCell_stores {m n : Nat} (truth : Table m n) (c : Cell m n) {mg : Margins} {row : Fin m → Int}
    {col : Fin n → Int} {tot : Int} (h : Stores mg row col tot) :
    ∃ mg', (sortAxes (allAxes 2)).foldlM (subCellAxis truth c) mg = some mg' ∧
      Stores mg' (fun i => row i - if c.1 = i then truth c.1 c.2 else 0)
        (fun j => col j - if c.2 = j then truth c.1 c.2 else 0) (tot - truth c.1 c.2) := by
  have h0 : (axesComplement 2 [[0]] true).head? = some [1] := by decide +kernel
  have h1 : (axesComplement 2 [[1]] true).head? = some [0] := by decide +kernel
  have e0 : subCellAxis truth c mg [0] = some (fun a => if a = [0] then
      some (List.ofFn fun j => if j = c.2 then col c.2 - truth c.1 c.2 else col j) else mg a) := by
    simp [subCellAxis, h0, subAt, h.cols, ofFn_set]
  have e1 : ∀ mg1 : Margins, mg1 [1] = some (List.ofFn row) →
      subCellAxis truth c mg1 [1] = some (fun a => if a = [1] then
      some (List.ofFn fun j => if j = c.1 then row c.1 - truth c.1 c.2 else row j) else mg1 a) := by
    intro mg1 h
    simp [subCellAxis, h1, subAt, h, ofFn_set]
  have e2 : ∀ mg1 : Margins, mg1 [0, 1] = some [tot] →
      subCellAxis truth c mg1 [0, 1] = some (fun a => if a = [0, 1] then
      some [tot - truth c.1 c.2] else mg1 a) := by
    intro mg1 h
    simp [subCellAxis, subAll, h]
  rw [sortAxes_two]
  simp only [List.foldlM_cons, List.foldlM_nil, e0, Option.bind_eq_bind, Option.bind_some]
  rw [e2 _ (by simp [h.grand])]
  simp only [Option.bind_some]
  rw [e1 _ (by simp [h.rows])]
  simp only [Option.bind_some]
  refine ⟨_, rfl, ?_⟩
  constructor
  · simp only [if_true, Option.some.injEq]
    congr 1; funext i
    by_cases hi : i = c.1
    · subst hi; simp
    · simp [hi, Ne.symm hi]
  · simp only [List.cons.injEq, zero_ne_one, if_false, if_true, reduceCtorEq, and_false, and_true,
      Option.some.injEq]
    congr 1; funext i
    by_cases hi : i = c.2
    · subst hi; simp
    · simp [hi, Ne.symm hi]
  · simp

/-- Sum of `truth` over the listed cells lying on a line. -/
def listSum {m n : Nat} (truth : Table m n) (cs : List (Cell m n)) (p : Cell m n → Bool) : Int :=
  (cs.map (fun c => if p c then truth c.1 c.2 else 0)).sum

theorem subCells_stores {m n : Nat} (truth : Table m n) (cs : List (Cell m n)) {mg : Margins}
    {row : Fin m → Int} {col : Fin n → Int} {tot : Int} (h : Stores mg row col tot) :
    ∃ mg', cs.foldlM (fun mg c => (sortAxes (allAxes 2)).foldlM (subCellAxis truth c) mg) mg = some mg' ∧
      Stores mg' (fun i => row i - listSum truth cs (fun c => c.1 = i))
        (fun j => col j - listSum truth cs (fun c => c.2 = j)) (tot - listSum truth cs (fun _ => true)) := by
  induction cs generalizing mg row col tot with
  | nil => exact ⟨mg, rfl, by simpa [listSum] using h⟩
  | cons c cs ih =>
    obtain ⟨mg1, e1, h1⟩ := subCell_stores truth c h
    obtain ⟨mg2, e2, h2⟩ := ih h1
    refine ⟨mg2, by simp [List.foldlM_cons, e1, e2], ?_⟩
    convert h2 using 1
    · funext i; simp only [listSum, List.map_cons, List.sum_cons, decide_eq_true_eq]; omega
    · funext i; simp only [listSum, List.map_cons, List.sum_cons, decide_eq_true_eq]; omega
    · simp only [listSum, List.map_cons, List.sum_cons, if_true]; omega

theorem listSum_eq {m n : Nat} (truth : Table m n) (cs : List (Cell m n)) (hn : cs.Nodup)
    (p : Cell m n → Bool) :
    listSum truth cs p = ∑ c : Cell m n, if c ∈ cs ∧ p c = true then truth c.1 c.2 else 0 := by
  induction cs with
  | nil => simp [listSum]
  | cons a cs ih =>
    have hn' := List.nodup_cons.mp hn
    have h1 : listSum truth (a :: cs) p = (if p a then truth a.1 a.2 else 0) + listSum truth cs p := by
      simp [listSum]
    rw [h1, ih hn'.2]
    have h2 : (if p a = true then truth a.1 a.2 else 0) =
        ∑ c : Cell m n, if c = a then (if p a = true then truth a.1 a.2 else 0) else 0 := by simp
    rw [h2, ← Finset.sum_add_distrib]
    apply Finset.sum_congr rfl
    intro c _
    by_cases hc : c = a
    · subst hc; simp [hn'.1]
    · simp [hc]

end GeNSIT
