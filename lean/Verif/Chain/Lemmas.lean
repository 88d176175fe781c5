import Verif.Chain.Model
import Verif.Basis.Props
import Verif.Table.Props
import Mathlib.Tactic.Linarith

/-!
# Helper lemmas for the table sampler
-/

namespace GeNSIT

open Spec

set_option linter.unusedSimpArgs false

/-- The three constraint sets for which a Markov basis is generated. -/
def BasisKind (constrained : List Ax) : Prop :=
  RowsOnly constrained ∨ ColsOnly constrained ∨ BothMargins constrained

theorem generated_move_preserves {m n : Nat} {constrained : List Ax} (hk : BasisKind constrained)
    {fixed : List (Cell m n)} {pick : Cell m n → Nat} {basis : List (Move m n)}
    (hb : generateBasis constrained fixed pick = some basis) {mv : Move m n} (hmv : mv ∈ basis)
    (t : Table m n) (eps : Int) :
    ([1] ∈ constrained → ∀ i, rowSum (applyMove t mv eps) i = rowSum t i) ∧
    ([0] ∈ constrained → ∀ j, colSum (applyMove t mv eps) j = colSum t j) ∧
    total (applyMove t mv eps) = total t ∧ AgreeAt fixed (applyMove t mv eps) t := by
  rcases hk with hk | hk | hk
  · obtain ⟨_, h1, h2, h3⟩ := C01_one_margin_moves_rows constrained hk fixed pick basis hb mv hmv t eps
    refine ⟨fun _ => h1, fun h => ?_, h2, h3⟩
    simpa using (hk.2 [0]).mp h
  · obtain ⟨_, h1, h2, h3⟩ := C01_one_margin_moves_cols constrained hk fixed pick basis hb mv hmv t eps
    refine ⟨fun h => ?_, fun _ => h1, h2, h3⟩
    simpa using (hk.2 [1]).mp h
  · obtain ⟨b, hb', hall⟩ := C02_both_margin_moves constrained hk fixed pick
    obtain rfl : b = basis := Option.some.inj (hb'.symm.trans hb)
    obtain ⟨_, h1, h2, h3, h4⟩ := hall mv hmv t eps
    exact ⟨fun _ => h1, fun _ => h2, h3, h4⟩

theorem both_basis_mem {m n : Nat} {constrained : List Ax} (hk : BothMargins constrained)
    {fixed : List (Cell m n)} {pick : Cell m n → Nat} {basis : List (Move m n)}
    (hb : generateBasis constrained fixed pick = some basis) {mv : Move m n} (hmv : mv ∈ basis) :
    ∃ a b : Cell m n, a.1 < b.1 ∧ a.2 < b.2 ∧ a ∉ fixed ∧ b ∉ fixed ∧ (a.1, b.2) ∉ fixed ∧ (b.1, a.2) ∉ fixed ∧
      mv = cornerMove a b := by
  obtain ⟨b', hb', hall⟩ := bothMarginLoop_mem (activeCandidates_both hk.2) (freeCells fixed) pick
    (freeCells fixed) (freeCells_sorted fixed)
  have : b' = basis := by
    have h : generateBasis constrained fixed pick = some b' := by simp [generateBasis, hk.1, bothMarginBasis, hb']
    exact Option.some.inj (h.symm.trans hb)
  subst this
  obtain ⟨a, b, _, _, hlt, hp, ha, hb, hab, hba, rfl⟩ := hall mv hmv
  simp only [mem_freeCells] at ha hb hab hba
  simp only [bothCand, Bool.and_eq_true, decide_eq_true_eq] at hp
  refine ⟨a, b, ?_, hp.2, ha, hb, hab, hba, rfl⟩
  rcases hlt with h | h
  · exact h
  · exact absurd h.1.symm hp.1

theorem sortCells_corner {m n : Nat} {a b : Cell m n} (h1 : a.1 < b.1) (h2 : a.2 < b.2) :
    sortCells ((cornerMove a b).map Prod.fst) = [(a.1, a.2), (a.1, b.2), (b.1, a.2), (b.1, b.2)] := by
  obtain ⟨a1, a2⟩ := a
  obtain ⟨b1, b2⟩ := b
  simp only at h1 h2
  have n1 : ¬ b1 < a1 := by omega
  have n2 : ¬ b2 ≤ a2 := by omega
  have n3 : ¬ b1 = a1 := by omega
  have n4 : ¬ a1 = b1 := by omega
  have n5 : a2 ≤ b2 := by omega
  simp [sortCells, cornerMove, List.insertionSort, List.orderedInsert, CellLe, h1, h2, n1, n2, n3, n4, n5]

theorem corner_effect {m n : Nat} (t : Table m n) {a b : Cell m n} (h1 : a.1 < b.1) (h2 : a.2 < b.2) (eps : Int)
    (i : Fin m) (j : Fin n) :
    applyMove t (cornerMove a b) eps i j = t i j +
      eps * (((if i = a.1 then 1 else 0) - (if i = b.1 then 1 else 0)) *
        ((if j = a.2 then 1 else 0) - (if j = b.2 then 1 else 0))) := by
  rw [applyMove_apply _ _ _ _ _ (cornerMove_keys (ne_of_lt h1) (ne_of_lt h2)),
    cornerMove_at (ne_of_lt h1) (ne_of_lt h2)]

/-- The degree-higher proposal is the corner move with step `v - t a`. -/
theorem degreeHigher_corner {m n : Nat} (t : Table m n) {a b : Cell m n} (h1 : a.1 < b.1) (h2 : a.2 < b.2)
    (val : Option Int) :
    degreeHigher t (cornerMove a b) val = some (applyMove t (cornerMove a b) (val.getD 0 - t a.1 a.2)) := by
  have hs := sortCells_corner h1 h2
  have hlen : ((cornerMove a b).filter fun kv => decide (0 < kv.2)).length = 2 := by
    simp [cornerMove, List.filter]
  unfold degreeHigher
  rw [if_pos hlen, hs]
  simp only [Option.some.injEq]
  funext i j
  rw [corner_effect t h1 h2]
  obtain ⟨a1, a2⟩ := a
  obtain ⟨b1, b2⟩ := b
  simp only at h1 h2
  simp only [Table.at, Prod.mk.injEq, List.map_cons, List.map_nil, List.sum_cons, List.sum_nil]
  have n3 : a1 ≠ b1 := ne_of_lt h1
  have n4 : a2 ≠ b2 := ne_of_lt h2
  by_cases e1 : i = a1 <;> by_cases e2 : i = b1 <;> by_cases e3 : j = a2 <;> by_cases e4 : j = b2 <;>
    simp_all <;> ring

theorem corner_nonneg_iff {m n : Nat} {t : Table m n} (ht : Nonneg t) {a b : Cell m n} (h1 : a.1 < b.1)
    (h2 : a.2 < b.2) (eps : Int) :
    Nonneg (applyMove t (cornerMove a b) eps) ↔
      0 ≤ t a.1 a.2 + eps ∧ 0 ≤ t b.1 b.2 + eps ∧ 0 ≤ t a.1 b.2 - eps ∧ 0 ≤ t b.1 a.2 - eps := by
  have n3 : a.1 ≠ b.1 := ne_of_lt h1
  have n4 : a.2 ≠ b.2 := ne_of_lt h2
  constructor
  · intro h
    have e1 := h a.1 a.2
    have e2 := h b.1 b.2
    have e3 := h a.1 b.2
    have e4 := h b.1 a.2
    rw [corner_effect t h1 h2] at e1 e2 e3 e4
    simp [n3, n4, n3.symm, n4.symm] at e1 e2 e3 e4
    omega
  · rintro ⟨e1, e2, e3, e4⟩ i j
    rw [corner_effect t h1 h2]
    have := ht i j
    by_cases d1 : i = a.1 <;> by_cases d2 : i = b.1 <;> by_cases d3 : j = a.2 <;> by_cases d4 : j = b.2 <;>
      simp_all

theorem mem_pyRange (a b x : Int) : x ∈ pyRange a b ↔ a ≤ x ∧ x < b := by
  unfold pyRange
  simp only [List.mem_map, List.mem_range]
  constructor
  · rintro ⟨k, hk, rfl⟩; omega
  · rintro ⟨h1, h2⟩; exact ⟨(x - a).toNat, by omega, by omega⟩

theorem pyRange_nodup (a b : Int) : (pyRange a b).Nodup := by
  unfold pyRange
  exact List.nodup_range.map (fun x y h => by simpa using h)

theorem rejectionLoop_some {m n : Nat} {adm : Table m n → Option Bool} {outs : List (Table m n)} {t : Table m n}
    (h : rejectionLoop adm outs = some t) : t ∈ outs ∧ adm t = some true := by
  induction outs with
  | nil => simp [rejectionLoop] at h
  | cons o rest ih =>
    unfold rejectionLoop at h
    cases ha : adm o with
    | none => simp [ha] at h
    | some b =>
      cases b with
      | true =>
        simp only [ha, Option.some.injEq] at h
        subst h
        exact ⟨by simp, ha⟩
      | false =>
        simp only [ha] at h
        exact ⟨List.mem_cons_of_mem _ (ih h).1, (ih h).2⟩

theorem tableNonnegative_iff {m n : Nat} (t : Table m n) : tableNonnegative t = true ↔ Nonneg t := by
  simp [tableNonnegative, Nonneg]

end GeNSIT
