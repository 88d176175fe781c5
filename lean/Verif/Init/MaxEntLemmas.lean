import Verif.Init.Model
import Verif.Table.Props
import Verif.Basis.Lemmas
import Verif.Chain.SampleLemmas
import Mathlib.Tactic.Linarith
import Mathlib.Algebra.Order.BigOperators.Group.Finset

/-!
# Helper lemmas for the maximum-entropy initialisation
-/

namespace GeNSIT

open Spec

set_option linter.unusedSimpArgs false

/-- What a residual margin should contain for the current table. -/
def expected {m n : Nat} (row : Fin m → Int) (col : Fin n → Int) (tot : Int) (t : Table m n) (a : Ax) : List Int :=
  if a = [1] then List.ofFn fun i => row i - rowSum t i
  else if a = [0] then List.ofFn fun j => col j - colSum t j
  else [tot - total t]

/-- `t` with one unit added at `c`. -/
def bump {m n : Nat} (t : Table m n) (c : Cell m n) : Table m n :=
  fun i j => if (i, j) = c then t i j + 1 else t i j

theorem rowSum_bump {m n : Nat} (t : Table m n) (c : Cell m n) (i : Fin m) :
    rowSum (bump t c) i = rowSum t i + if i = c.1 then 1 else 0 := by
  unfold rowSum bump
  have : (if i = c.1 then (1 : Int) else 0) = ∑ j, if (i, j) = c then 1 else 0 := by
    by_cases h : i = c.1
    · subst h
      have : ∀ j, ((c.1, j) = c) = (j = c.2) := fun j => by simp [Prod.ext_iff]
      simp [this]
    · have : ∀ j, (i, j) ≠ c := fun j e => h (congrArg Prod.fst e)
      simp [h, this]
  rw [this, ← Finset.sum_add_distrib]
  refine Finset.sum_congr rfl fun j _ => ?_
  split_ifs <;> simp

theorem colSum_bump {m n : Nat} (t : Table m n) (c : Cell m n) (j : Fin n) :
    colSum (bump t c) j = colSum t j + if j = c.2 then 1 else 0 := by
  unfold colSum bump
  have : (if j = c.2 then (1 : Int) else 0) = ∑ i, if (i, j) = c then 1 else 0 := by
    by_cases h : j = c.2
    · subst h
      have : ∀ i, ((i, c.2) = c) = (i = c.1) := fun i => by simp [Prod.ext_iff]
      simp [this]
    · have : ∀ i, (i, j) ≠ c := fun i e => h (congrArg Prod.snd e)
      simp [h, this]
  rw [this, ← Finset.sum_add_distrib]
  refine Finset.sum_congr rfl fun j _ => ?_
  split_ifs <;> simp

theorem total_bump {m n : Nat} (t : Table m n) (c : Cell m n) : total (bump t c) = total t + 1 := by
  have e : ∀ s : Table m n, total s = ∑ i, rowSum s i := fun s => rfl
  rw [e, e]
  simp only [rowSum_bump, Finset.sum_add_distrib]
  simp

theorem subCellAxis_expected {m n : Nat} (row : Fin m → Int) (col : Fin n → Int) (tot : Int) (t : Table m n)
    (c : Cell m n) (mg : Margins) (a : Ax) (ha : a = [0] ∨ a = [1] ∨ a = [0, 1])
    (h : mg a = some (expected row col tot t a)) :
    subCellAxis (fun _ _ => 1 : Table m n) c mg a =
      some (fun b => if b = a then some (expected row col tot (bump t c) a) else mg b) := by
  have h0 : (axesComplement 2 [[0]] true).head? = some [1] := by decide +kernel
  have h1 : (axesComplement 2 [[1]] true).head? = some [0] := by decide +kernel
  rcases ha with rfl | rfl | rfl
  · simp only [expected] at h ⊢
    simp [subCellAxis, h0, subAt, h, ofFn_set]
    funext b
    split_ifs <;> try rfl
    congr 2
    funext j
    rw [colSum_bump]
    by_cases hj : j = c.2
    · subst hj; simp; ring
    · simp [hj]
  · simp only [expected] at h ⊢
    simp [subCellAxis, h1, subAt, h, ofFn_set]
    funext b
    split_ifs <;> try rfl
    congr 2
    funext j
    rw [rowSum_bump]
    by_cases hj : j = c.1
    · subst hj; simp; ring
    · simp [hj]
  · simp only [expected] at h ⊢
    simp [subCellAxis, subAll, h, total_bump]
    funext b
    split_ifs <;> try rfl
    congr 2
    ring

theorem subAxes_expected {m n : Nat} (row : Fin m → Int) (col : Fin n → Int) (tot : Int) (t : Table m n)
    (c : Cell m n) (axes : List Ax) (hnd : axes.Nodup) (htw : TwoWay axes) (mg : Margins)
    (h : ∀ a ∈ axes, mg a = some (expected row col tot t a)) :
    ∃ mg', axes.foldlM (subCellAxis (fun _ _ => 1 : Table m n) c) mg = some mg' ∧
      (∀ a ∈ axes, mg' a = some (expected row col tot (bump t c) a)) ∧ ∀ a, a ∉ axes → mg' a = mg a := by
  induction axes generalizing mg with
  | nil => exact ⟨mg, rfl, by simp, fun _ _ => rfl⟩
  | cons a axes ih =>
    obtain ⟨ha, hnd'⟩ := List.nodup_cons.mp hnd
    have e := subCellAxis_expected row col tot t c mg a (htw a (by simp)) (h a (by simp))
    obtain ⟨mg', e', h1, h2⟩ := ih hnd' (fun b hb => htw b (List.mem_cons_of_mem _ hb))
      (fun b => if b = a then some (expected row col tot (bump t c) a) else mg b) (by
        intro b hb
        have : b ≠ a := fun hba => ha (hba ▸ hb)
        simp only [this, if_false]
        exact h b (List.mem_cons_of_mem _ hb))
    refine ⟨mg', by simp [List.foldlM_cons, e, e'], ?_, ?_⟩
    · intro b hb
      rcases List.mem_cons.mp hb with rfl | hb
      · rw [h2 b ha]; simp
      · exact h1 b hb
    · intro b hb
      simp only [List.mem_cons, not_or] at hb
      rw [h2 b hb.2]; simp [hb.1]

/-- No unit can be added at `c` without exceeding a constrained margin. -/
def Dead {m n : Nat} (constrained : List Ax) (row : Fin m → Int) (col : Fin n → Int) (tot : Int) (t : Table m n)
    (c : Cell m n) : Prop :=
  ([1] ∈ constrained ∧ row c.1 ≤ rowSum t c.1) ∨ ([0] ∈ constrained ∧ col c.2 ≤ colSum t c.2) ∨
    ([0, 1] ∈ constrained ∧ tot ≤ total t)

theorem mapM_some {α β : Type} (f : α → Option β) (l : List α) (g : α → β) (h : ∀ a ∈ l, f a = some (g a)) :
    l.mapM f = some (l.map g) := by
  induction l with
  | nil => simp
  | cons a l ih =>
    rw [List.mapM_cons, h a (by simp), ih (fun b hb => h b (List.mem_cons_of_mem _ hb))]
    simp

theorem minres_spec {m n : Nat} (row : Fin m → Int) (col : Fin n → Int) (tot : Int) (t : Table m n)
    (c : Cell m n) (axes : List Ax) (htw : TwoWay axes) (h01 : [0, 1] ∈ axes) (mg : Margins)
    (h : ∀ a ∈ axes, mg a = some (expected row col tot t a)) :
    ∃ v, minres mg axes c = some v ∧ (v ≤ 0 ↔ Dead axes row col tot t c) := by
  let g : Ax → Int := fun a => if a = [0, 1] then tot - total t else if a = [0] then col c.2 - colSum t c.2
    else row c.1 - rowSum t c.1
  have happ : ∀ a ∈ axes, applicableMargin mg c a = some (g a) := by
    intro a ha
    have hm := h a ha
    rcases htw a ha with rfl | rfl | rfl
    · simp [applicableMargin, hm, expected, g]
    · simp [applicableMargin, hm, expected, g]
    · simp [applicableMargin, hm, expected, g]
  have hne : axes ≠ [] := by rintro rfl; simp at h01
  have hlen : ¬ axes.length ≤ 0 := by
    cases axes with
    | nil => exact absurd rfl hne
    | cons _ _ => simp
  unfold minres
  rw [if_neg hlen, mapM_some _ _ g happ]
  cases hmin : (axes.map g).min? with
  | none => rw [List.min?_eq_none_iff] at hmin; simp [hne] at hmin
  | some v =>
    refine ⟨v, by simp [hmin], ?_⟩
    obtain ⟨hv, hle⟩ := List.min?_eq_some_iff.mp hmin
    constructor
    · intro hv0
      obtain ⟨a, ha, rfl⟩ := List.mem_map.mp hv
      rcases htw a ha with rfl | rfl | rfl
      · right; left; refine ⟨ha, ?_⟩; simp [g] at hv0; omega
      · left; refine ⟨ha, ?_⟩; simp [g] at hv0; omega
      · right; right; refine ⟨ha, ?_⟩; simp [g] at hv0; omega
    · rintro (⟨ha, h0⟩ | ⟨ha, h0⟩ | ⟨ha, h0⟩)
      · have := hle _ (List.mem_map.mpr ⟨_, ha, rfl⟩); simp [g] at this; omega
      · have := hle _ (List.mem_map.mpr ⟨_, ha, rfl⟩); simp [g] at this; omega
      · have := hle _ (List.mem_map.mpr ⟨_, ha, rfl⟩); simp [g] at this; omega

theorem dead_bump {m n : Nat} {constrained : List Ax} {row : Fin m → Int} {col : Fin n → Int} {tot : Int}
    {t : Table m n} {c : Cell m n} (d : Cell m n) (h : Dead constrained row col tot t d) :
    Dead constrained row col tot (bump t c) d := by
  rcases h with ⟨h, h'⟩ | ⟨h, h'⟩ | ⟨h, h'⟩
  · refine Or.inl ⟨h, ?_⟩; rw [rowSum_bump]; split_ifs <;> omega
  · refine Or.inr (Or.inl ⟨h, ?_⟩); rw [colSum_bump]; split_ifs <;> omega
  · refine Or.inr (Or.inr ⟨h, ?_⟩); rw [total_bump]; omega

/-- No constrained margin is exceeded. -/
structure Below {m n : Nat} (constrained : List Ax) (row : Fin m → Int) (col : Fin n → Int) (tot : Int)
    (t : Table m n) : Prop where
  nonneg : Nonneg t
  rows : [1] ∈ constrained → ∀ i, rowSum t i ≤ row i
  cols : [0] ∈ constrained → ∀ j, colSum t j ≤ col j
  grand : total t ≤ tot

theorem below_bump {m n : Nat} {constrained : List Ax} {row : Fin m → Int} {col : Fin n → Int} {tot : Int}
    {t : Table m n} {c : Cell m n} (h01 : [0, 1] ∈ constrained) (hb : Below constrained row col tot t)
    (h : ¬ Dead constrained row col tot t c) : Below constrained row col tot (bump t c) := by
  simp only [Dead, not_or, not_and, not_le] at h
  refine ⟨fun i j => ?_, fun h1 i => ?_, fun h0 j => ?_, ?_⟩
  · have := hb.nonneg i j
    unfold bump; split_ifs <;> omega
  · have := hb.rows h1 i
    rw [rowSum_bump]; split_ifs with hi
    · subst hi; have := h.1 h1; omega
    · omega
  · have := hb.cols h0 j
    rw [colSum_bump]; split_ifs with hi
    · subst hi; have := h.2.1 h0; omega
    · omega
  · rw [total_bump]; have := h.2.2 h01; omega

/-- Below the margins and with the right total, every constrained margin is met. -/
theorem meets_of_total {m n : Nat} {constrained : List Ax} {row : Fin m → Int} {col : Fin n → Int} {tot : Int}
    {t truth : Table m n} (hb : Below constrained row col tot t)
    (hr : [1] ∈ constrained → ∑ i, row i = tot) (hc : [0] ∈ constrained → ∑ j, col j = tot)
    (h : total t = tot) : Meets constrained row col tot [] truth t := by
  refine ⟨fun h1 i => ?_, fun h0 j => ?_, fun _ => h, fun i j hij => by simp at hij⟩
  · have hs : ∑ i, rowSum t i = ∑ i, row i := by rw [hr h1, ← h]; rfl
    exact (Finset.sum_eq_sum_iff_of_le fun i _ => hb.rows h1 i).mp hs i (Finset.mem_univ i)
  · have hs : ∑ j, colSum t j = ∑ j, col j := by
      rw [hc h0, ← h]; exact Finset.sum_comm
    exact (Finset.sum_eq_sum_iff_of_le fun i _ => hb.cols h0 i).mp hs j (Finset.mem_univ j)

/-- If no unit can be added anywhere, the total has been reached. -/
theorem total_of_dead {m n : Nat} {constrained : List Ax} {row : Fin m → Int} {col : Fin n → Int} {tot : Int}
    {t : Table m n} (hm : 0 < m) (hn : 0 < n) (hb : Below constrained row col tot t)
    (hr : [1] ∈ constrained → ∑ i, row i = tot) (hc : [0] ∈ constrained → ∑ j, col j = tot)
    (hd : ∀ c, Dead constrained row col tot t c) : total t = tot := by
  by_contra hne
  have hlt : total t < tot := lt_of_le_of_ne hb.grand hne
  have hi : ∃ i, [1] ∈ constrained → rowSum t i < row i := by
    by_cases h1 : [1] ∈ constrained
    · have : ∑ i, rowSum t i < ∑ i, row i := by rw [hr h1]; exact hlt
      obtain ⟨i, _, hi⟩ := Finset.exists_lt_of_sum_lt this
      exact ⟨i, fun _ => hi⟩
    · exact ⟨⟨0, hm⟩, fun h => absurd h h1⟩
  have hj : ∃ j, [0] ∈ constrained → colSum t j < col j := by
    by_cases h1 : [0] ∈ constrained
    · have : ∑ j, colSum t j < ∑ j, col j := by
        rw [hc h1]; have e : ∑ j, colSum t j = total t := Finset.sum_comm
        rw [e]; exact hlt
      obtain ⟨i, _, hi⟩ := Finset.exists_lt_of_sum_lt this
      exact ⟨i, fun _ => hi⟩
    · exact ⟨⟨0, hn⟩, fun h => absurd h h1⟩
  obtain ⟨i, hi⟩ := hi
  obtain ⟨j, hj⟩ := hj
  rcases hd (i, j) with ⟨h, h'⟩ | ⟨h, h'⟩ | ⟨h, h'⟩
  · have := hi h; simp only at h'; omega
  · have := hj h; simp only at h'; omega
  · omega

/-- Loop invariant. -/
structure MaxEntInv {m n : Nat} (constrained : List Ax) (row : Fin m → Int) (col : Fin n → Int) (tot : Int)
    (s : MaxEnt m n) : Prop where
  below : Below constrained row col tot s.table
  res : ∀ a ∈ constrained, s.residual a = some (expected row col tot s.table a)
  sub : ∀ c ∈ s.unchosen, c ∈ s.free
  nd : s.unchosen.Nodup
  dead : ∀ c, c ∉ s.free → Dead constrained row col tot s.table c

theorem inv_reset {m n : Nat} {constrained : List Ax} {row : Fin m → Int} {col : Fin n → Int} {tot : Int}
    {s : MaxEnt m n} (h : MaxEntInv constrained row col tot s) (hnd : s.free.Nodup) :
    MaxEntInv constrained row col tot (maxEntReset s) ∧
      ((maxEntReset s).unchosen = [] → (maxEntReset s).free = []) := by
  unfold maxEntReset
  split_ifs with h0
  · exact ⟨⟨h.below, h.res, fun _ hc => hc, hnd, h.dead⟩, fun h => h⟩
  · exact ⟨h, fun he => absurd (by rw [he]; simp : s.unchosen.length ≤ 0) h0⟩

theorem inv_chosen {m n : Nat} {constrained : List Ax} {row : Fin m → Int} {col : Fin n → Int} {tot : Int}
    (hnd : constrained.Nodup) (htw : TwoWay constrained) (h01 : [0, 1] ∈ constrained)
    {s : MaxEnt m n} (h : MaxEntInv constrained row col tot s) (hfnd : s.free.Nodup) {c : Cell m n}
    (hc : c ∈ s.unchosen) :
    ∃ s', maxEntChosen constrained s c = some s' ∧ MaxEntInv constrained row col tot s' ∧ s'.free.Nodup ∧
      (s'.free.length : Int) + (tot - total s'.table) < s.free.length + (tot - total s.table) := by
  obtain ⟨v, hv, hiff⟩ := minres_spec row col tot s.table c constrained htw h01 s.residual h.res
  unfold maxEntChosen
  simp only [hv]
  by_cases h0 : v ≤ 0
  · rw [if_pos h0]
    refine ⟨_, rfl, ⟨h.below, h.res, ?_, h.nd.erase c, ?_⟩, hfnd.erase c, ?_⟩
    · intro d hd
      rw [h.nd.mem_erase_iff] at hd
      rw [hfnd.mem_erase_iff]
      exact ⟨hd.1, h.sub d hd.2⟩
    · intro d hd
      by_cases hdc : d = c
      · subst hdc; exact hiff.mp h0
      · exact h.dead d (fun hf => hd (hfnd.mem_erase_iff.mpr ⟨hdc, hf⟩))
    · have := List.length_erase_of_mem (h.sub c hc)
      have := List.length_pos_of_mem (h.sub c hc)
      simp only
      omega
  · rw [if_neg h0, if_pos (by simpa using h01)]
    obtain ⟨mg', e, h1, h2⟩ := subAxes_expected row col tot s.table c constrained hnd htw s.residual h.res
    have eu : updateMarginsFromCells (fun _ _ => 1 : Table m n) [] s.residual constrained [c] = some mg' := by
      simp [updateMarginsFromCells, e]
    rw [eu]
    have hd : ¬ Dead constrained row col tot s.table c := fun hd => h0 (hiff.mpr hd)
    refine ⟨_, rfl, ⟨below_bump h01 h.below hd, h1, ?_, h.nd.erase c, ?_⟩, hfnd, ?_⟩
    · intro d hd
      exact h.sub d (List.mem_of_mem_erase hd)
    · intro d hd
      exact dead_bump d (h.dead d hd)
    · have := total_bump s.table c
      unfold bump at this
      simp only
      omega

end GeNSIT
