import Verif.Basis.Connect

/-! # Property theorems C04, C05 (connectivity of the fibre) -/

set_option linter.unusedSimpArgs false

namespace GeNSIT

open Spec

/-- One `±1` application of a basis move that keeps the table non-negative. -/
def UnitStep {m n : Nat} (basis : List (Move m n)) (t t' : Table m n) : Prop :=
  ∃ mv ∈ basis, ∃ e : Int, (e = 1 ∨ e = -1) ∧ t' = applyMove t mv e ∧ Nonneg t'

/-- `t'` can be reached from `t` through non-negative tables by `±1` applications of basis moves. -/
def Reaches {m n : Nat} (basis : List (Move m n)) : Table m n → Table m n → Prop :=
  Relation.ReflTransGen (UnitStep basis)

/-! ## C04 -/

theorem pair_step {m n : Nat} {basis : List (Move m n)} {a b : Cell m n} (hab : a ≠ b)
    (h : pairMove (a, b) ∈ basis ∨ pairMove (b, a) ∈ basis) (A : Table m n) (hA : Nonneg A) (h1 : 1 ≤ A a.1 a.2) :
    UnitStep basis A (fun i j => A i j + ((if (i, j) = b then 1 else 0) - (if (i, j) = a then 1 else 0))) := by
  have hnn : Nonneg (fun i j => A i j + ((if (i, j) = b then (1 : Int) else 0) - (if (i, j) = a then 1 else 0)) :
      Table m n) := by
    intro i j
    have := hA i j
    by_cases h2 : (i, j) = a
    · have : (i, j) ≠ b := fun h => hab (h2.symm.trans h)
      subst h2; simp [this]; exact h1
    · by_cases h3 : (i, j) = b
      · simp [h2, h3, hab.symm]; omega
      · simp [h2, h3, this]
  rcases h with h | h
  · refine ⟨_, h, -1, Or.inr rfl, ?_, hnn⟩
    funext i j
    rw [applyPair A hab]
    split_ifs <;> omega
  · refine ⟨_, h, 1, Or.inl rfl, ?_, hnn⟩
    funext i j
    rw [applyPair A hab.symm]

theorem reaches_of_transfers {m n : Nat} {κ : Type} [DecidableEq κ] (key : Cell m n → κ) (fixed : List (Cell m n))
    (basis : List (Move m n))
    (hb : ∀ a b, a ≠ b → key a = key b → a ∉ fixed → b ∉ fixed → pairMove (a, b) ∈ basis ∨ pairMove (b, a) ∈ basis)
    (A B : Table m n) (hA : Nonneg A) (hB : Nonneg B) (hf : AgreeAt fixed A B)
    (hk : ∀ k, ∑ c ∈ Finset.univ.filter (fun c => key c = k), A c.1 c.2 =
        ∑ c ∈ Finset.univ.filter (fun c => key c = k), B c.1 c.2) : Reaches basis A B := by
  have h := connect_by_transfers key (fun c => c ∉ fixed)
    (fun f g => UnitStep basis (fun i j => f (i, j)) (fun i j => g (i, j)))
    (by
      intro f a b hf0 hab hkey ha hb' h1
      exact pair_step hab (hb a b hab hkey ha hb') (fun i j => f (i, j)) (fun i j => hf0 (i, j)) h1)
    (fun c => B c.1 c.2) (fun c => hB c.1 c.2) _ (fun c => A c.1 c.2) (fun c => hA c.1 c.2)
    (by intro c hc; exact hf c.1 c.2 (by simpa using hc)) hk (le_refl _)
  exact Relation.ReflTransGen.lift (fun f : Cell m n → Int => (fun i j => f (i, j) : Table m n))
    (fun _ _ h => h) _ _ h

/-- **C04, rows constrained.**  Any two non-negative tables with equal row sums that agree at the fixed cells are
joined by finitely many `±1` applications of generated moves through non-negative tables. -/
theorem C04_connected_rows {m n : Nat} (constrained : List Ax) (hc : RowsOnly constrained)
    (fixed : List (Cell m n)) (pick : Cell m n → Nat) (basis : List (Move m n))
    (hb : generateBasis constrained fixed pick = some basis) (A B : Table m n) (hA : Nonneg A) (hB : Nonneg B)
    (hrow : ∀ i, rowSum A i = rowSum B i) (hf : AgreeAt fixed A B) : Reaches basis A B := by
  rw [rows_basis_eq hc] at hb
  obtain rfl := Option.some.inj hb
  refine reaches_of_transfers (fun c => c.1) fixed _ ?_ A B hA hB hf ?_
  · intro a b hab hkey ha hb
    rcases lt_trichotomy a.2 b.2 with h | h | h
    · exact Or.inl (List.mem_map.mpr ⟨(a, b), (mem_rowPairs fixed a b).mpr ⟨ha, hb, hkey, h⟩, rfl⟩)
    · exact absurd (Prod.ext hkey h) hab
    · exact Or.inr (List.mem_map.mpr ⟨(b, a), (mem_rowPairs fixed b a).mpr ⟨hb, ha, hkey.symm, h⟩, rfl⟩)
  · intro k
    have e : ∀ T : Table m n, ∑ c ∈ Finset.univ.filter (fun c : Cell m n => c.1 = k), T c.1 c.2 = rowSum T k := by
      intro T
      rw [Finset.sum_filter, Fintype.sum_prod_type, Finset.sum_eq_single k]
      · simp [rowSum]
      · intro b _ hb; simp [hb]
      · simp
    rw [e, e, hrow]

/-- **C04, columns constrained.** -/
theorem C04_connected_cols {m n : Nat} (constrained : List Ax) (hc : ColsOnly constrained)
    (fixed : List (Cell m n)) (pick : Cell m n → Nat) (basis : List (Move m n))
    (hb : generateBasis constrained fixed pick = some basis) (A B : Table m n) (hA : Nonneg A) (hB : Nonneg B)
    (hcol : ∀ j, colSum A j = colSum B j) (hf : AgreeAt fixed A B) : Reaches basis A B := by
  rw [cols_basis_eq hc] at hb
  obtain rfl := Option.some.inj hb
  refine reaches_of_transfers (fun c => c.2) fixed _ ?_ A B hA hB hf ?_
  · intro a b hab hkey ha hb
    rcases lt_trichotomy a.1 b.1 with h | h | h
    · exact Or.inl (List.mem_map.mpr ⟨(a, b), (mem_colPairs fixed a b).mpr ⟨ha, hb, hkey, h⟩, rfl⟩)
    · exact absurd (Prod.ext h hkey) hab
    · exact Or.inr (List.mem_map.mpr ⟨(b, a), (mem_colPairs fixed b a).mpr ⟨hb, ha, hkey.symm, h⟩, rfl⟩)
  · intro k
    have e : ∀ T : Table m n, ∑ c ∈ Finset.univ.filter (fun c : Cell m n => c.2 = k), T c.1 c.2 = colSum T k := by
      intro T
      rw [Finset.sum_filter, Fintype.sum_prod_type, Finset.sum_comm, Finset.sum_eq_single k]
      · simp [colSum]
      · intro b _ hb; simp [hb]
      · simp
    rw [e, e, hcol]

example : Nonneg (m := 2) (n := 2) ![![1, 2], ![3, 4]] ∧ Nonneg (m := 2) (n := 2) ![![3, 0], ![3, 4]] ∧
    (∀ i, rowSum (m := 2) (n := 2) ![![1, 2], ![3, 4]] i = rowSum (m := 2) (n := 2) ![![3, 0], ![3, 4]] i) ∧
    AgreeAt (m := 2) (n := 2) [(1, 0)] ![![1, 2], ![3, 4]] ![![3, 0], ![3, 4]] := by
  unfold Nonneg AgreeAt rowSum; decide +kernel

/-! ## C05 -/

/-- `pick` is a possible outcome of `np.random.choice(range(len(candidates)))` for every cell: it is a valid
index whenever the cell has candidates. -/
def ValidPick {m n : Nat} (constrained : List Ax) (fixed : List (Cell m n)) (pick : Cell m n → Nat) : Prop :=
  ∀ pre c rest cands, freeCells fixed = pre ++ c :: rest → candidatesFor constrained c rest = some cands →
    cands ≠ [] → pick c < cands.length

/-- The outcome used in the counter-example: cell `(0,0)` draws `(1,2)`, cell `(0,1)` draws `(1,2)`. -/
def badPick : Cell 2 3 → Nat := fun c => if c = (0, 0) then 1 else 0

theorem badPick_valid : ValidPick [[0], [0, 1], [1]] [] badPick := by
  intro pre c rest cands h hc hne
  have hfree : freeCells ([] : List (Cell 2 3)) = [(0, 0), (0, 1), (0, 2), (1, 0), (1, 1), (1, 2)] := by
    decide +kernel
  have hb : ∀ a, a ∈ ([[0], [0, 1], [1]] : List Ax) ↔ a = [0] ∨ a = [1] ∨ a = [0, 1] := by
    intro a; simp [or_comm]
  rw [candidatesFor_eq (activeCandidates_both hb)] at hc
  obtain rfl := Option.some.inj hc
  rw [hfree] at h
  by_cases hc0 : c = (0, 0)
  · subst hc0
    match pre, h with
    | [], h =>
      simp only [List.nil_append, List.cons.injEq, true_and] at h
      subst h; decide +kernel
    | x :: pre, h =>
      simp only [List.cons_append, List.cons.injEq] at h
      have : ((0, 0) : Cell 2 3) ∈ [(0, 1), (0, 2), (1, 0), (1, 1), ((1, 2) : Cell 2 3)] := by
        rw [h.2]; simp
      exact absurd this (by decide +kernel)
  · simp only [badPick, hc0, if_false]
    exact List.length_pos_iff.mpr hne

/-- **C05 is false of the code.**  For a 2×3 table there is a possible outcome of the generator's random choices
and two non-negative tables with equal row and column sums such that the second cannot be reached from the
first: the generator keeps only one random partner per cell. -/
theorem C05_not_connected : ∃ (pick : Cell 2 3 → Nat) (basis : List (Move 2 3)) (A B : Table 2 3),
    ValidPick [[0], [0, 1], [1]] [] pick ∧ generateBasis [[0], [0, 1], [1]] [] pick = some basis ∧
    Nonneg A ∧ Nonneg B ∧ (∀ i, rowSum A i = rowSum B i) ∧ (∀ j, colSum A j = colSum B j) ∧
    ¬ Reaches basis A B := by
  refine ⟨badPick, [[((0, 0), 1), ((1, 2), 1), ((0, 2), -1), ((1, 0), -1)],
    [((0, 1), 1), ((1, 2), 1), ((0, 2), -1), ((1, 1), -1)]], ![![1, 0, 0], ![0, 1, 0]], ![![0, 1, 0], ![1, 0, 0]],
    badPick_valid, by decide +kernel, by unfold Nonneg; decide +kernel, by unfold Nonneg; decide +kernel,
    by unfold rowSum; decide +kernel, by unfold colSum; decide +kernel, ?_⟩
  intro h
  rcases Relation.ReflTransGen.cases_head h with h | ⟨t, ht, _⟩
  · have := congrFun (congrFun h 0) 0
    exact absurd this (by decide)
  · obtain ⟨mv, hmv, e, he, rfl, hn⟩ := ht
    simp only [List.mem_cons, List.not_mem_nil, or_false] at hmv
    rcases hmv with rfl | rfl <;> rcases he with rfl | rfl <;> revert hn <;> unfold Nonneg <;> decide +kernel

/-- **C05 (what holds, 2×2).**  For 2×2 tables the generated basis connects all non-negative tables with equal
margins, whatever the generator draws.  Missing: larger tables, where the claim is false (`C05_not_connected`). -/
theorem C05_connected_two_by_two_partial (constrained : List Ax) (hc : BothMargins constrained)
    (pick : Cell 2 2 → Nat) (hpick : ValidPick (m := 2) (n := 2) constrained [] pick) (basis : List (Move 2 2))
    (hb : generateBasis constrained [] pick = some basis) (A B : Table 2 2) (hA : Nonneg A) (hB : Nonneg B)
    (hrow : ∀ i, rowSum A i = rowSum B i) (hcol : ∀ j, colSum A j = colSum B j) : Reaches basis A B := by
  have hfree : freeCells ([] : List (Cell 2 2)) = [(0, 0), (0, 1), (1, 0), (1, 1)] := by decide +kernel
  have hp0 : pick (0, 0) = 0 := by
    have := hpick [] (0, 0) [(0, 1), (1, 0), (1, 1)] [(1, 1)] hfree
      (by rw [candidatesFor_eq (activeCandidates_both hc.2)]; decide +kernel) (by simp)
    simpa using this
  have hmem : cornerMove ((0, 0) : Cell 2 2) (1, 1) ∈ basis := by
    have hl : constrained.length ≠ 2 := by rw [hc.1]; decide
    simp only [generateBasis, hc.1, Nat.reduceEqDiff, if_false, if_true, bothMarginBasis, hfree, bothMarginLoop, bothMarginFor,
      candidatesFor_eq (activeCandidates_both hc.2), Option.bind_eq_bind, Option.bind_some, hp0] at hb
    have e1 : (List.filter (bothCand ((0, 0) : Cell 2 2)) [(0, 1), (1, 0), (1, 1)]) = [(1, 1)] := by decide +kernel
    have e2 : (List.filter (bothCand ((0, 1) : Cell 2 2)) [(1, 0), (1, 1)]) = [] := by decide +kernel
    have e3 : (List.filter (bothCand ((1, 0) : Cell 2 2)) [(1, 1)]) = [] := by decide +kernel
    have e4 : (List.filter (bothCand ((1, 1) : Cell 2 2)) []) = [] := by decide +kernel
    simp [e1, e2, e3, e4] at hb
    rw [← hb]; simp
  refine connect_by_rectangles (UnitStep basis) ?_ B hB _ A hA hrow hcol (Int.self_le_toNat _)
  intro T i i' j j' hT hi hj h1 h2
  have hnn : Nonneg (rectShift T i i' j j') := by
    intro x y
    have h0 := hT x y
    simp only [rectShift]
    by_cases g1 : x = i' <;> by_cases g2 : x = i <;> by_cases g3 : y = j <;> by_cases g4 : y = j' <;>
      (try simp_all) <;> (try subst_vars) <;> omega
  have key : ∀ e : Int, e = 1 ∨ e = -1 → rectShift T i i' j j' = applyMove T (cornerMove (0, 0) (1, 1)) e →
      UnitStep basis T (rectShift T i i' j j') := fun e he h => ⟨_, hmem, e, he, h, hnn⟩
  have happ : ∀ e x y, applyMove T (cornerMove (0, 0) (1, 1)) e x y = T x y +
      e * (((if x = 0 then 1 else 0) - (if x = 1 then 1 else 0)) * ((if y = 0 then 1 else 0) - (if y = 1 then 1 else 0))) := by
    intro e x y
    rw [applyMove_apply _ _ _ _ _ (cornerMove_keys (by decide) (by decide)), cornerMove_at (by decide) (by decide)]
  have hii : (i = 0 ∧ i' = 1) ∨ (i = 1 ∧ i' = 0) := by omega
  have hjj : (j = 0 ∧ j' = 1) ∨ (j = 1 ∧ j' = 0) := by omega
  rcases hii with ⟨rfl, rfl⟩ | ⟨rfl, rfl⟩ <;> rcases hjj with ⟨rfl, rfl⟩ | ⟨rfl, rfl⟩
  · apply key (-1) (Or.inr rfl); funext x y; rw [happ]; simp only [rectShift]; ring
  · apply key 1 (Or.inl rfl); funext x y; rw [happ]; simp only [rectShift]; ring
  · apply key 1 (Or.inl rfl); funext x y; rw [happ]; simp only [rectShift]; ring
  · apply key (-1) (Or.inr rfl); funext x y; rw [happ]; simp only [rectShift]; ring

/-- Adding the given multiples of the moves, one after the other. -/
def addMoves {m n : Nat} (t : Table m n) (steps : List (Move m n × Int)) : Table m n :=
  steps.foldl (fun s p => applyMove s p.1 p.2) t

/-- Inductive core of `C05_lattice_connected_partial`: processing the cells in order. -/
theorem lattice_core {m n : Nat} {constrained : List Ax}
    (hcand : ∀ (c : Cell m n) (later : List (Cell m n)),
      activeCandidates constrained c later = some (later.filter (bothCand c)))
    (pick : Cell m n → Nat) (B : Table m n) (l : List (Cell m n)) :
    ∀ (pre : List (Cell m n)) (A : Table m n), allCells m n = pre ++ l →
      (∀ p c rest, allCells m n = p ++ c :: rest → rest.filter (bothCand c) ≠ [] →
        pick c < (rest.filter (bothCand c)).length) →
      (∀ i, rowSum A i = rowSum B i) → (∀ j, colSum A j = colSum B j) →
      (∀ i j, (i, j) ∈ pre → A i j = B i j) →
      ∃ basis, bothMarginLoop constrained (allCells m n) pick l = some basis ∧
        ∃ zs : List Int, zs.length = basis.length ∧ addMoves A (basis.zip zs) = B := by
  induction l with
  | nil =>
    intro pre A hall _ _ _ hag
    refine ⟨[], rfl, [], rfl, ?_⟩
    funext i j
    have : (i, j) ∈ pre := by
      have h := mem_allCells (i, j)
      rw [hall] at h; simpa using h
    simpa [addMoves] using hag i j this
  | cons c rest ih =>
    intro pre A hall hpick hrow hcol hag
    have hsort := allCells_sorted m n
    have hall' : allCells m n = (pre ++ [c]) ++ rest := by rw [hall]; simp
    rw [hall] at hsort
    obtain ⟨_, hs2, hs3⟩ := List.pairwise_append.mp hsort
    obtain ⟨hs4, _⟩ := List.pairwise_cons.mp hs2
    -- a cell after `c` lies in `rest`
    have later : ∀ d : Cell m n, CellLt c d → d ∈ rest := by
      intro d hd
      have h := mem_allCells d
      rw [hall] at h
      rcases List.mem_append.mp h with h | h
      · exact absurd hd (hs3 d h c (by simp)).asymm
      · rcases List.mem_cons.mp h with h | h
        · exact absurd h.symm hd.ne
        · exact h
    have earlier : ∀ d : Cell m n, CellLt d c → d ∈ pre := by
      intro d hd
      have h := mem_allCells d
      rw [hall] at h
      rcases List.mem_append.mp h with h | h
      · exact h
      · rcases List.mem_cons.mp h with h | h
        · exact absurd h hd.ne
        · exact absurd hd (hs4 d h).asymm
    have hmemall : ∀ d : Cell m n, (allCells m n).contains d = true := by
      intro d; simpa using mem_allCells d
    cases hq : (rest.filter (bothCand c))[pick c]? with
    | some tup2 =>
      have hm := List.mem_filter.mp (List.mem_of_getElem? hq)
      have hb := hm.2
      simp only [bothCand, Bool.and_eq_true, decide_eq_true_eq] at hb
      have hlt : CellLt c tup2 := hs4 _ hm.1
      have hr : c.1 < tup2.1 := by
        rcases hlt with h | ⟨h, _⟩
        · exact h
        · exact absurd h.symm hb.1
      have hne1 : c.1 ≠ tup2.1 := ne_of_lt hr
      have hne2 : c.2 ≠ tup2.2 := ne_of_lt hb.2
      set z : Int := B c.1 c.2 - A c.1 c.2 with hz
      have heff : ∀ i j, applyMove A (cornerMove c tup2) z i j = A i j +
          z * (((if i = c.1 then 1 else 0) - (if i = tup2.1 then 1 else 0)) *
            ((if j = c.2 then 1 else 0) - (if j = tup2.2 then 1 else 0))) := by
        intro i j
        rw [applyMove_apply _ _ _ _ _ (cornerMove_keys hne1 hne2), cornerMove_at hne1 hne2]
      have hzero : ∀ (k : Nat) (x y : Fin k), ∑ z : Fin k, ((if z = x then (1 : Int) else 0) - (if z = y then 1 else 0)) = 0 := by
        intro k x y; rw [Finset.sum_sub_distrib]; simp
      obtain ⟨basis, hbs, zs, hlen, hres⟩ := ih (pre ++ [c]) (applyMove A (cornerMove c tup2) z) hall' hpick
        (by
          intro i
          rw [← hrow i]
          simp only [rowSum, heff]
          rw [Finset.sum_add_distrib, ← Finset.mul_sum, ← Finset.mul_sum, hzero]; simp)
        (by
          intro j
          rw [← hcol j]
          simp only [colSum, heff]
          rw [Finset.sum_add_distrib, ← Finset.mul_sum, ← Finset.sum_mul, hzero]; simp)
        (by
          intro i j hij
          rw [heff]
          rcases List.mem_append.mp hij with h | h
          · have hlt' : CellLt (i, j) c := hs3 _ h c (by simp)
            rw [hag i j h]
            have hi : i ≠ tup2.1 := by
              rintro rfl
              rcases hlt' with g | g
              · exact lt_asymm g hr
              · exact hne1 g.1.symm
            by_cases hi2 : i = c.1
            · subst hi2
              have hj : j < c.2 := by
                rcases hlt' with g | g
                · exact absurd g (lt_irrefl _)
                · exact g.2
              have hj1 : j ≠ c.2 := ne_of_lt hj
              have hj2 : j ≠ tup2.2 := ne_of_lt (lt_trans hj hb.2)
              simp [hj1, hj2]
            · simp [hi, hi2]
          · simp only [List.mem_singleton] at h
            subst h
            simp [hne1, hne2, hz])
      refine ⟨cornerMove c tup2 :: basis, ?_, z :: zs, by simp [hlen], ?_⟩
      · simp only [bothMarginLoop, bothMarginFor, candidatesFor_eq hcand, Option.bind_eq_bind, Option.bind_some, hq,
          hmemall, Bool.and_self, if_true, Option.pure_def, hbs, List.singleton_append]
      · simpa [addMoves] using hres
    | none =>
      have hnil : rest.filter (bothCand c) = [] := by
        by_contra hne
        have h := hpick pre c rest hall hne
        rw [List.getElem?_eq_getElem h] at hq
        exact absurd hq (by simp)
      have hAc : A c.1 c.2 = B c.1 c.2 := by
        by_cases hlast : ∃ i : Fin m, c.1 < i
        · obtain ⟨i, hi⟩ := hlast
          -- `c` is in the last column: use the row sum
          have hcol' : ∀ j, j ≤ c.2 := by
            intro j
            by_contra hj
            have hj' : c.2 < j := lt_of_not_ge hj
            have h1 : (i, j) ∈ rest := later (i, j) (Or.inl hi)
            have h2 : (i, j) ∈ rest.filter (bothCand c) :=
              List.mem_filter.mpr ⟨h1, by simp [bothCand, ne_of_gt hi, hj']⟩
            rw [hnil] at h2; exact absurd h2 (by simp)
          have hoth : ∀ j, j ≠ c.2 → A c.1 j = B c.1 j := fun j hj =>
            hag c.1 j (earlier _ (Or.inr ⟨rfl, lt_of_le_of_ne (hcol' j) hj⟩))
          have h1 := hrow c.1
          simp only [rowSum] at h1
          rw [← Finset.add_sum_erase _ _ (Finset.mem_univ c.2),
            ← Finset.add_sum_erase _ (fun j => B c.1 j) (Finset.mem_univ c.2)] at h1
          have h2 : ∑ b ∈ Finset.univ.erase c.2, A c.1 b = ∑ b ∈ Finset.univ.erase c.2, B c.1 b :=
            Finset.sum_congr rfl fun b hb => hoth b (Finset.ne_of_mem_erase hb)
          omega
        · have hoth : ∀ i, i ≠ c.1 → A i c.2 = B i c.2 := by
            intro i hi
            have hle : i ≤ c.1 := by
              by_contra h; exact hlast ⟨i, lt_of_not_ge h⟩
            exact hag i c.2 (earlier _ (Or.inl (lt_of_le_of_ne hle hi)))
          have h1 := hcol c.2
          simp only [colSum] at h1
          rw [← Finset.add_sum_erase _ _ (Finset.mem_univ c.1),
            ← Finset.add_sum_erase _ (fun i => B i c.2) (Finset.mem_univ c.1)] at h1
          have h2 : ∑ b ∈ Finset.univ.erase c.1, A b c.2 = ∑ b ∈ Finset.univ.erase c.1, B b c.2 :=
            Finset.sum_congr rfl fun b hb => hoth b (Finset.ne_of_mem_erase hb)
          omega
      obtain ⟨basis, hbs, zs, hlen, hres⟩ := ih (pre ++ [c]) A hall' hpick hrow hcol (by
        intro i j hij
        rcases List.mem_append.mp hij with h | h
        · exact hag i j h
        · simp only [List.mem_singleton] at h
          subst h; exact hAc)
      refine ⟨basis, ?_, zs, hlen, hres⟩
      simp only [bothMarginLoop, bothMarginFor, candidatesFor_eq hcand, Option.bind_eq_bind, Option.bind_some, hq,
        Option.pure_def, hbs, List.nil_append]

/-- **C05 (what holds, ignoring non-negativity of intermediate tables).**  With no fixed cells, for every
dimension and every possible outcome of the generator's random choices, any table can be turned into any
other table with the same row and column sums by adding suitable integer multiples of the generated moves, one
multiple per move.  Missing: intermediate tables may have negative entries. -/
theorem C05_lattice_connected_partial {m n : Nat} (constrained : List Ax) (hc : BothMargins constrained)
    (pick : Cell m n → Nat) (hpick : ValidPick constrained ([] : List (Cell m n)) pick) (A B : Table m n)
    (hrow : ∀ i, rowSum A i = rowSum B i) (hcol : ∀ j, colSum A j = colSum B j) :
    ∃ basis, generateBasis constrained ([] : List (Cell m n)) pick = some basis ∧
      ∃ zs : List Int, zs.length = basis.length ∧ addMoves A (basis.zip zs) = B := by
  have hfree : freeCells ([] : List (Cell m n)) = allCells m n := by
    simp [freeCells, removeCells]
  have hl : constrained.length ≠ 2 := by rw [hc.1]; decide
  simp only [generateBasis, hc.1, Nat.reduceEqDiff, if_false, if_true, bothMarginBasis, hfree]
  apply lattice_core (activeCandidates_both hc.2) pick B (allCells m n) [] A (by simp) _ hrow hcol (by simp)
  intro p c rest h hne
  exact hpick p c rest _ (hfree.trans h) (candidatesFor_eq (activeCandidates_both hc.2) c rest) hne

/-- Every outcome `pick = 0` is possible, so `ValidPick` is satisfiable for every dimension. -/
example {m n : Nat} (constrained : List Ax) : ValidPick constrained ([] : List (Cell m n)) (fun _ => 0) :=
  fun _ _ _ _ _ _ hne => List.length_pos_iff.mpr hne

end GeNSIT
