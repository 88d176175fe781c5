import Verif.Chain.Fisher
import Verif.Chain.SampleProps
import Mathlib.MeasureTheory.Measure.Lebesgue.Basic

/-!
# C95: invariant law of the degree-one table step
-/

open MeasureTheory Set
open scoped ENNReal

namespace GeNSIT

open Spec

/-! ## Model -/

/-- The expectation of `psi` of the table after one degree-one table step (`ContingencyTable_MCMC.py:589-609`, `:671-698`, `:754-775`):
uniform basis index (`:594`), fair sign (`uniform_binary_choice`, `utils/probability_utils.py:15-25`), uniform number `u`
(`torch.rand(1)`, `:770`; the value `0` has probability `0`).  `psi none` stands for an exception. -/
noncomputable def oneMean {m n : Nat} (s : Sampler m n) (t : Table m n) (psi : Option (Table m n) → ℝ≥0∞) : ℝ≥0∞ :=
  (∑ idx ∈ Finset.range s.basis.length, ∑ eps ∈ ({-1, 1} : Finset Int),
    ∫⁻ u in Ioo (0 : ℝ) 1, psi ((s.step t (.one idx eps (Real.log u : ℝ))).map Prod.fst)) / (2 * s.basis.length)

/-! ## Specification -/

/-- The measure `∏ exp(w)^t` without the factorials. -/
noncomputable def Spec.noFactorials {m n : Nat} (w : Fin m → Fin n → ℝ) (t : Table m n) : ℝ :=
  ∏ i, ∏ j, Real.exp (w i j) ^ (t i j).toNat

/-- The non-negative tables that meet the constrained margins and the fixed cells. -/
def Spec.MeetFibre {m n : Nat} (constrained : List Ax) (row : Fin m → Int) (col : Fin n → Int) (tot : Int)
    (fixed : List (Cell m n)) (truth : Table m n) : Set (Table m n) :=
  fun t => Nonneg t ∧ Meets constrained row col tot fixed truth t

/-! ## Proof -/

theorem generated_move_shape {m n : Nat} {constrained : List Ax} (hk : BasisKind constrained)
    {fixed : List (Cell m n)} {pick : Cell m n → Nat} {basis : List (Move m n)}
    (hb : generateBasis constrained fixed pick = some basis) {mv : Move m n} (hmv : mv ∈ basis) :
    (mv.map Prod.fst).Nodup ∧ ∀ i j, -1 ≤ moveAt mv (i, j) ∧ moveAt mv (i, j) ≤ 1 := by
  rcases hk with hk | hk | hk
  · rw [rows_basis_eq hk] at hb
    obtain rfl := Option.some.inj hb
    obtain ⟨⟨a, b⟩, hab, rfl⟩ := List.mem_map.mp hmv
    obtain ⟨_, _, _, h2⟩ := (mem_rowPairs fixed a b).mp hab
    have hne : a ≠ b := by rintro rfl; exact lt_irrefl _ h2
    refine ⟨pairMove_keys hne, fun i j => ?_⟩
    rw [pairMove_at hne]
    split_ifs <;> omega
  · rw [cols_basis_eq hk] at hb
    obtain rfl := Option.some.inj hb
    obtain ⟨⟨a, b⟩, hab, rfl⟩ := List.mem_map.mp hmv
    obtain ⟨_, _, _, h2⟩ := (mem_colPairs fixed a b).mp hab
    have hne : a ≠ b := by rintro rfl; exact lt_irrefl _ h2
    refine ⟨pairMove_keys hne, fun i j => ?_⟩
    rw [pairMove_at hne]
    split_ifs <;> omega
  · obtain ⟨a, b, h1, h2, _, _, _, _, rfl⟩ := both_basis_mem hk hb hmv
    refine ⟨cornerMove_keys (ne_of_lt h1) (ne_of_lt h2), fun i j => ?_⟩
    rw [cornerMove_at (ne_of_lt h1) (ne_of_lt h2)]
    split_ifs <;> simp

theorem lintegral_accept (d : ℝ) (x y : ℝ≥0∞) :
    ∫⁻ u in Ioo (0 : ℝ) 1, (open Classical in if 0 ≤ d ∨ Real.log u < d then x else y) =
      min 1 (ENNReal.ofReal (Real.exp d)) * x + (1 - min 1 (ENNReal.ofReal (Real.exp d))) * y := by
  classical
  by_cases hd : 0 ≤ d
  · have : min 1 (ENNReal.ofReal (Real.exp d)) = 1 := by
      rw [min_eq_left]
      rw [← ENNReal.ofReal_one]
      exact ENNReal.ofReal_le_ofReal (Real.one_le_exp hd)
    simp [hd]
  · simp only [hd, false_or]
    push Not at hd
    have he : Real.exp d < 1 := Real.exp_lt_one_iff.2 hd
    have hmin : min 1 (ENNReal.ofReal (Real.exp d)) = ENNReal.ofReal (Real.exp d) := by
      rw [min_eq_right]
      rw [← ENNReal.ofReal_one]
      exact ENNReal.ofReal_le_ofReal he.le
    have hset : Ioo (0 : ℝ) 1 = Ioo 0 (Real.exp d) ∪ (Ioo (0 : ℝ) 1 \ Ioo 0 (Real.exp d)) := by
      rw [union_sdiff_cancel]
      exact Ioo_subset_Ioo le_rfl he.le
    rw [hset, lintegral_union (measurableSet_Ioo.diff measurableSet_Ioo) disjoint_sdiff_right, hmin]
    congr 1
    · rw [setLIntegral_congr_fun (g := fun _ => x) measurableSet_Ioo]
      · rw [setLIntegral_const, Real.volume_Ioo, sub_zero, mul_comm]
      · intro u hu
        have : Real.log u < d := (Real.log_lt_iff_lt_exp hu.1).2 hu.2
        simp [this]
    · rw [setLIntegral_congr_fun (g := fun _ => y) (measurableSet_Ioo.diff measurableSet_Ioo)]
      · rw [setLIntegral_const, measure_sdiff (Ioo_subset_Ioo le_rfl he.le) measurableSet_Ioo.nullMeasurableSet
          (by rw [Real.volume_Ioo]; exact ENNReal.ofReal_ne_top), Real.volume_Ioo, Real.volume_Ioo, mul_comm]
        simp
      · intro u hu
        have : ¬ Real.log u < d := by
          intro h
          exact hu.2 ⟨hu.1.1, (Real.log_lt_iff_lt_exp hu.1.1).1 h⟩
        simp [this]

/-- Entries at most `2`: the accumulated factorial terms vanish. -/
theorem summed_small {m n : Nat} (w : Fin m → Fin n → ℝ) (new prev : Table m n) (h1 : ∀ i j, new i j ≤ 2) (h2 : ∀ i j, prev i j ≤ 2) :
    summedLogRatio new prev (some w) = ∑ i, ∑ j, ((new i j - prev i j : Int) : ℝ) * w i j := by
  unfold summedLogRatio
  refine Finset.sum_congr rfl fun i _ => Finset.sum_congr rfl fun j _ => ?_
  have z : ∀ a b : Int, b ≤ 2 → ∑ k ∈ Finset.Ico (max a 1).toNat (max b 1).toNat, Real.log (Nat.factorial k) = 0 := by
    intro a b hb
    refine Finset.sum_eq_zero fun k hk => ?_
    rw [Finset.mem_Ico] at hk
    have : k = 1 := by omega
    subst this
    simp
  rw [z _ _ (h2 i j), z _ _ (h1 i j)]
  simp

theorem noFactorials_exp {m n : Nat} (w : Fin m → Fin n → ℝ) (t : Table m n) (ht : Nonneg t) :
    noFactorials w t = Real.exp (∑ i, ∑ j, (t i j : ℝ) * w i j) := by
  unfold noFactorials
  rw [Real.exp_sum]
  refine Finset.prod_congr rfl fun i _ => ?_
  rw [Real.exp_sum]
  refine Finset.prod_congr rfl fun j _ => ?_
  rw [← Real.exp_nat_mul]
  congr 2
  exact_mod_cast Int.toNat_of_nonneg (ht i j)

/-- The law of the next table, given the move and the sign. -/
theorem one_step_mean {m n : Nat} (s : Sampler m n) (w : Fin m → Fin n → ℝ) (hw : s.logI = some w) (t : Table m n)
    (ht2 : ∀ i j, t i j ≤ 2) (idx : Nat) (eps : Int) (mv : Move m n) (hmv : s.basis[idx]? = some mv)
    (hd : ∀ i j, t i j - 1 ≤ applyMove t mv eps i j) (h2 : Nonneg (applyMove t mv eps) → ∀ i j, applyMove t mv eps i j ≤ 2)
    (psi : Option (Table m n) → ℝ≥0∞) :
    ∫⁻ u in Ioo (0 : ℝ) 1, psi ((s.step t (.one idx eps (Real.log u : ℝ))).map Prod.fst) =
      (open Classical in if Nonneg (applyMove t mv eps) then
        min 1 (ENNReal.ofReal (Real.exp (∑ i, ∑ j, ((applyMove t mv eps i j - t i j : Int) : ℝ) * w i j))) *
            psi (some (applyMove t mv eps)) +
          (1 - min 1 (ENNReal.ofReal (Real.exp (∑ i, ∑ j, ((applyMove t mv eps i j - t i j : Int) : ℝ) * w i j)))) * psi (some t)
      else psi (some t)) := by
  classical
  have hno : ∀ i j, ¬ (2 ≤ applyMove t mv eps i j ∧ applyMove t mv eps i j < t i j) := by
    intro i j
    have := hd i j; have := ht2 i j
    omega
  by_cases hn : Nonneg (applyMove t mv eps)
  · rw [if_pos hn, ← summed_small w _ _ (h2 hn) ht2, ← lintegral_accept]
    refine lintegral_congr fun u => ?_
    obtain ⟨_, q2, q3⟩ := C10_acceptance s t idx eps (Real.log u : ℝ) mv hmv hno
    rw [hw] at q2 q3
    by_cases hc : 0 ≤ summedLogRatio (applyMove t mv eps) t (some w) ∨ Real.log u < summedLogRatio (applyMove t mv eps) t (some w)
    · rw [q2 hn (hc.imp id fun h => WithBot.coe_lt_coe.2 h)]
      simp [hc]
    · push Not at hc
      rw [q3 hn hc.1 (WithBot.coe_le_coe.2 hc.2)]
      simp [not_le.2 hc.1, not_lt.2 hc.2]
  · rw [if_neg hn]
    have : ∀ u : ℝ, s.step t (.one idx eps (Real.log u : ℝ)) = some (t, 0) :=
      fun u => (C10_acceptance s t idx eps (Real.log u : ℝ) mv hmv hno).1 hn
    simp [this]

/-- Detailed balance for one move, summed over the two signs. -/
theorem move_balance {m n : Nat} (P : Table m n → ℝ≥0∞) (A : Table m n → Table m n → ℝ≥0∞) (hA1 : ∀ t t', A t t' ≤ 1)
    (F : Finset (Table m n)) (hsym : ∀ t ∈ F, ∀ t' ∈ F, P t * A t t' = P t' * A t' t) (hnn : ∀ t ∈ F, Nonneg t) (mv : Move m n) (hnd : (mv.map Prod.fst).Nodup)
    (hcl : ∀ t ∈ F, ∀ e, Nonneg (applyMove t mv e) → applyMove t mv e ∈ F) (psi : Table m n → ℝ≥0∞) :
    ∑ t ∈ F, P t * ∑ eps ∈ ({-1, 1} : Finset Int), (open Classical in if Nonneg (applyMove t mv eps) then
        A t (applyMove t mv eps) * psi (applyMove t mv eps) + (1 - A t (applyMove t mv eps)) * psi t else psi t) =
      2 * ∑ t ∈ F, P t * psi t := by
  classical
  have hcell := fun t e i j => applyMove_apply (m := m) (n := n) t mv e i j hnd
  have hback : ∀ t e, applyMove (applyMove t mv e) mv (-e) = t := by
    intro t e
    funext i j
    rw [hcell, hcell]; ring
  -- the pairs with an admissible target
  let G : Finset (Table m n × Int) := (F ×ˢ {-1, 1}).filter fun x => applyMove x.1 mv x.2 ∈ F
  have hG : ∀ x : Table m n × Int, x ∈ G ↔ x.1 ∈ F ∧ (x.2 = -1 ∨ x.2 = 1) ∧ applyMove x.1 mv x.2 ∈ F := by
    intro x
    simp [G, and_assoc]
  have hswap : ∑ x ∈ G, P x.1 * A x.1 (applyMove x.1 mv x.2) * psi (applyMove x.1 mv x.2) =
      ∑ x ∈ G, P x.1 * A x.1 (applyMove x.1 mv x.2) * psi x.1 := by
    refine Finset.sum_bij' (fun x _ => (applyMove x.1 mv x.2, -x.2)) (fun x _ => (applyMove x.1 mv x.2, -x.2)) ?_ ?_ ?_ ?_ ?_
    · intro x hx
      obtain ⟨a, b, c⟩ := (hG x).1 hx
      exact (hG _).2 ⟨c, by simp only; omega, by simp only [hback]; exact a⟩
    · intro x hx
      obtain ⟨a, b, c⟩ := (hG x).1 hx
      exact (hG _).2 ⟨c, by simp only; omega, by simp only [hback]; exact a⟩
    · intro x _
      simp [hback]
    · intro x _
      simp [hback]
    · intro x hx
      obtain ⟨a, b, c⟩ := (hG x).1 hx
      simp only [hback]
      rw [hsym _ a _ c]
  have hdecomp : ∀ f : Table m n → Int → ℝ≥0∞, ∑ t ∈ F, ∑ eps ∈ ({-1, 1} : Finset Int), f t eps =
      ∑ x ∈ G, f x.1 x.2 + ∑ x ∈ (F ×ˢ ({-1, 1} : Finset Int)).filter (fun x => ¬ applyMove x.1 mv x.2 ∈ F), f x.1 x.2 := by
    intro f
    rw [← Finset.sum_product' F {-1, 1} f]
    exact (Finset.sum_filter_add_sum_filter_not _ _ _).symm
  calc _ = ∑ t ∈ F, ∑ eps ∈ ({-1, 1} : Finset Int), P t * (if Nonneg (applyMove t mv eps) then
        A t (applyMove t mv eps) * psi (applyMove t mv eps) + (1 - A t (applyMove t mv eps)) * psi t else psi t) := by
        exact Finset.sum_congr rfl fun t _ => by rw [Finset.mul_sum]
    _ = ∑ x ∈ G, (P x.1 * A x.1 (applyMove x.1 mv x.2) * psi (applyMove x.1 mv x.2) +
          P x.1 * ((1 - A x.1 (applyMove x.1 mv x.2)) * psi x.1)) +
        ∑ x ∈ (F ×ˢ ({-1, 1} : Finset Int)).filter (fun x => ¬ applyMove x.1 mv x.2 ∈ F), P x.1 * psi x.1 := by
        rw [hdecomp]
        congr 1
        · refine Finset.sum_congr rfl fun x hx => ?_
          obtain ⟨a, b, c⟩ := (hG x).1 hx
          rw [if_pos (hnn _ c)]
          ring
        · refine Finset.sum_congr rfl fun x hx => ?_
          obtain ⟨a, b⟩ := Finset.mem_filter.1 hx
          rw [if_neg fun h => b (hcl _ (Finset.mem_product.1 a).1 _ h)]
    _ = ∑ x ∈ G, P x.1 * psi x.1 +
        ∑ x ∈ (F ×ˢ ({-1, 1} : Finset Int)).filter (fun x => ¬ applyMove x.1 mv x.2 ∈ F), P x.1 * psi x.1 := by
        congr 1
        rw [Finset.sum_add_distrib, hswap, ← Finset.sum_add_distrib]
        refine Finset.sum_congr rfl fun x _ => ?_
        have := add_tsub_cancel_of_le (hA1 x.1 (applyMove x.1 mv x.2))
        calc _ = P x.1 * psi x.1 * (A x.1 (applyMove x.1 mv x.2) + (1 - A x.1 (applyMove x.1 mv x.2))) := by ring
          _ = _ := by rw [this, mul_one]
    _ = ∑ t ∈ F, ∑ eps ∈ ({-1, 1} : Finset Int), P t * psi t := (hdecomp fun t _ => P t * psi t).symm
    _ = _ := by
        rw [Finset.mul_sum]
        refine Finset.sum_congr rfl fun t _ => ?_
        rw [Finset.sum_const]
        simp

/-- **C95.** One margin or both constrained, any generated non-empty basis, a fibre none of whose tables has an entry above `2`: the law the
degree-one step leaves invariant is `∏ exp(w)^t`, without the factorials of the target. -/
theorem C95_degree_one_exact {m n : Nat} (s : Sampler m n) (hk : BasisKind s.constrained) (pick : Cell m n → Nat)
    (hb : generateBasis s.constrained s.fixed pick = some s.basis) (hne : s.basis ≠ []) (w : Fin m → Fin n → ℝ) (hw : s.logI = some w)
    (row : Fin m → Int) (col : Fin n → Int) (tot : Int) (F : Finset (Table m n))
    (hF : ↑F = MeetFibre s.constrained row col tot s.fixed s.truth) (hsmall : ∀ t ∈ F, ∀ i j, t i j ≤ 2)
    (psi : Option (Table m n) → ℝ≥0∞) :
    ∑ t ∈ F, ENNReal.ofReal (noFactorials w t) * oneMean s t psi = ∑ t ∈ F, ENNReal.ofReal (noFactorials w t) * psi (some t) := by
  classical
  have hmem : ∀ t, t ∈ F ↔ Nonneg t ∧ Meets s.constrained row col tot s.fixed s.truth t := by
    intro t
    rw [← Finset.mem_coe, hF]; rfl
  have hlen : (s.basis.length : ℝ≥0∞) ≠ 0 := by
    have := List.length_pos_of_ne_nil hne
    exact_mod_cast this.ne'
  let A : Table m n → Table m n → ℝ≥0∞ := fun t t' =>
    min 1 (ENNReal.ofReal (Real.exp (∑ i, ∑ j, ((t' i j - t i j : Int) : ℝ) * w i j)))
  have hsym : ∀ t ∈ F, ∀ t' ∈ F, ENNReal.ofReal (noFactorials w t) * A t t' = ENNReal.ofReal (noFactorials w t') * A t' t := by
    have key : ∀ t ∈ F, ∀ t' ∈ F, ENNReal.ofReal (noFactorials w t) * A t t' =
        min (ENNReal.ofReal (noFactorials w t)) (ENNReal.ofReal (noFactorials w t')) := by
      intro t ht t' ht'
      simp only [A]
      rw [mul_min, mul_one, noFactorials_exp w t ((hmem t).1 ht).1, noFactorials_exp w t' ((hmem t').1 ht').1,
        ← ENNReal.ofReal_mul (Real.exp_nonneg _), ← Real.exp_add]
      congr 3
      rw [← Finset.sum_add_distrib]
      refine Finset.sum_congr rfl fun i _ => ?_
      rw [← Finset.sum_add_distrib]
      refine Finset.sum_congr rfl fun j _ => ?_
      push_cast
      ring
    intro t ht t' ht'
    rw [key t ht t' ht', key t' ht' t ht, min_comm]
  have hidx : ∀ idx ∈ Finset.range s.basis.length, ∑ t ∈ F, ENNReal.ofReal (noFactorials w t) *
      ∑ eps ∈ ({-1, 1} : Finset Int), ∫⁻ u in Ioo (0 : ℝ) 1, psi ((s.step t (.one idx eps (Real.log u : ℝ))).map Prod.fst) =
      2 * ∑ t ∈ F, ENNReal.ofReal (noFactorials w t) * psi (some t) := by
    intro idx hi
    have hi' := Finset.mem_range.1 hi
    have hget : s.basis[idx]? = some s.basis[idx] := List.getElem?_eq_getElem hi'
    have hmv : s.basis[idx] ∈ s.basis := List.getElem_mem hi'
    obtain ⟨hnd, hv⟩ := generated_move_shape hk hb hmv
    have hcl : ∀ t ∈ F, ∀ e, Nonneg (applyMove t s.basis[idx] e) → applyMove t s.basis[idx] e ∈ F := by
      intro t ht e hn
      obtain ⟨_, p⟩ := (hmem t).1 ht
      obtain ⟨q1, q2, q3, q4⟩ := generated_move_preserves hk hb hmv t e
      refine (hmem _).2 ⟨hn, ⟨fun h i => (q1 h i).trans (p.rows h i), fun h j => (q2 h j).trans (p.cols h j),
        fun h => q3.trans (p.grand h), ?_⟩⟩
      intro i j hij
      rw [q4 i j hij]; exact p.cells i j hij
    rw [← move_balance (fun t => ENNReal.ofReal (noFactorials w t)) A (fun _ _ => min_le_left _ _) F hsym
      (fun t ht => ((hmem t).1 ht).1) s.basis[idx] hnd hcl fun t => psi (some t)]
    refine Finset.sum_congr rfl fun t ht => ?_
    congr 1
    refine Finset.sum_congr rfl fun eps he => ?_
    have he' : eps = -1 ∨ eps = 1 := by simpa using he
    rw [one_step_mean s w hw t (hsmall t ht) idx eps _ hget]
    · intro i j
      rw [applyMove_apply t _ eps i j hnd]
      have := hv i j
      rcases he' with rfl | rfl <;> omega
    · intro hn
      exact hsmall _ (hcl t ht eps hn)
  unfold oneMean
  have hden : (2 * s.basis.length : ℝ≥0∞) ≠ 0 := by simp [hlen]
  have hden' : (2 * s.basis.length : ℝ≥0∞) ≠ ⊤ := ENNReal.mul_ne_top (by simp) (by simp)
  calc _ = (∑ idx ∈ Finset.range s.basis.length, ∑ t ∈ F, ENNReal.ofReal (noFactorials w t) *
      ∑ eps ∈ ({-1, 1} : Finset Int), ∫⁻ u in Ioo (0 : ℝ) 1, psi ((s.step t (.one idx eps (Real.log u : ℝ))).map Prod.fst)) /
        (2 * s.basis.length) := by
        simp only [div_eq_mul_inv, ← mul_assoc]
        rw [← Finset.sum_mul, Finset.sum_comm]
        congr 1
        exact Finset.sum_congr rfl fun t _ => by rw [Finset.mul_sum]
    _ = _ := by
        rw [Finset.sum_congr rfl hidx, Finset.sum_const, Finset.card_range, nsmul_eq_mul, ← mul_assoc, mul_comm (s.basis.length : ℝ≥0∞) 2,
          mul_comm, mul_div_assoc, ENNReal.div_self hden hden', mul_one]

/-- **C95.** (Missing: tables with an entry of `2` or more, where the claim is false.)  On a fibre of tables of zeros and ones the degree-one
step leaves the target invariant. -/
theorem C95_degree_one_partial {m n : Nat} (s : Sampler m n) (hk : BasisKind s.constrained) (pick : Cell m n → Nat)
    (hb : generateBasis s.constrained s.fixed pick = some s.basis) (hne : s.basis ≠ []) (w : Fin m → Fin n → ℝ) (hw : s.logI = some w)
    (row : Fin m → Int) (col : Fin n → Int) (tot : Int) (F : Finset (Table m n))
    (hF : ↑F = MeetFibre s.constrained row col tot s.fixed s.truth) (hsmall : ∀ t ∈ F, ∀ i j, t i j ≤ 1)
    (psi : Option (Table m n) → ℝ≥0∞) :
    ∑ t ∈ F, ENNReal.ofReal (target w t) * oneMean s t psi = ∑ t ∈ F, ENNReal.ofReal (target w t) * psi (some t) := by
  have heq : ∀ t ∈ F, target w t = noFactorials w t := by
    intro t ht
    unfold target noFactorials
    refine Finset.prod_congr rfl fun i _ => Finset.prod_congr rfl fun j _ => ?_
    have h1 := hsmall t ht i j
    have : (t i j).toNat ≤ 1 := by omega
    rw [Nat.factorial_eq_one.2 this]
    simp
  have := C95_degree_one_exact s hk pick hb hne w hw row col tot F hF (fun t ht i j => (hsmall t ht i j).trans (by norm_num)) psi
  rw [Finset.sum_congr rfl fun t ht => by rw [heq t ht], this]
  exact Finset.sum_congr rfl fun t ht => by rw [heq t ht]

/-- The sampler of the counterexample: a 2×2 table, both margins constrained, equal intensities. -/
noncomputable def evenSampler : Sampler 2 2 := { smallSampler with logI := some fun _ _ => 0 }

/-- The table with upper-left entry `v` and all margins `k`. -/
def tabV (k v : Int) : Table 2 2 := fun i j => if i = j then v else k - v

theorem two_fibre (k : Int) (l : Finset (Table 2 2)) (hl : ∀ t, t ∈ l ↔ ∃ v, 0 ≤ v ∧ v ≤ k ∧ t = tabV k v) : (l : Set (Table 2 2)) =
    MeetFibre [[0], [0, 1], [1]] (fun _ => k) (fun _ => k) (2 * k) [] (fun _ _ => 1) := by
  ext t
  rw [Finset.mem_coe, hl]
  constructor
  · rintro ⟨v, h0, h1, rfl⟩
    refine ⟨?_, ⟨fun _ => ?_, fun _ => ?_, fun _ => ?_, by intro i j h; simp at h⟩⟩
    · intro i j
      unfold tabV
      split <;> omega
    · intro i; fin_cases i <;> simp [rowSum, tabV]
    · intro i; fin_cases i <;> simp [colSum, tabV]
    · simp [total, tabV]; ring
  · rintro ⟨h1, hm⟩
    have r := hm.rows (by simp)
    have c := hm.cols (by simp)
    have r0 := r 0; have r1 := r 1; have c0 := c 0
    simp only [rowSum, colSum, Fin.sum_univ_two] at r0 r1 c0
    have p00 := h1 0 0; have p01 := h1 0 1; have p10 := h1 1 0; have p11 := h1 1 1
    refine ⟨t 0 0, by omega, by omega, ?_⟩
    funext i j
    fin_cases i <;> fin_cases j <;> simp [tabV] <;> omega

theorem two_mem {t : Table 2 2} : t ∈ ({tabV 2 0, tabV 2 1, tabV 2 2} : Finset (Table 2 2)) ↔ ∃ v, 0 ≤ v ∧ v ≤ 2 ∧ t = tabV 2 v := by
  simp only [Finset.mem_insert, Finset.mem_singleton]
  constructor
  · rintro (h | h | h)
    · exact ⟨0, by omega, by omega, h⟩
    · exact ⟨1, by omega, by omega, h⟩
    · exact ⟨2, by omega, by omega, h⟩
  · rintro ⟨v, h0, h1, rfl⟩
    rcases (by omega : v = 0 ∨ v = 1 ∨ v = 2) with rfl | rfl | rfl <;> simp

theorem one_mem {t : Table 2 2} : t ∈ ({tabV 1 0, tabV 1 1} : Finset (Table 2 2)) ↔ ∃ v, 0 ≤ v ∧ v ≤ 1 ∧ t = tabV 1 v := by
  simp only [Finset.mem_insert, Finset.mem_singleton]
  constructor
  · rintro (h | h)
    · exact ⟨0, by omega, by omega, h⟩
    · exact ⟨1, by omega, by omega, h⟩
  · rintro ⟨v, h0, h1, rfl⟩
    rcases (by omega : v = 0 ∨ v = 1) with rfl | rfl <;> simp

theorem even_mean (v : Int) (h0 : 0 ≤ v) (h2 : v ≤ 2) (psi : Option (Table 2 2) → ℝ≥0∞) :
    oneMean evenSampler (tabV 2 v) psi =
      ((if 0 < v then psi (some (tabV 2 (v - 1))) else psi (some (tabV 2 v))) +
        (if v < 2 then psi (some (tabV 2 (v + 1))) else psi (some (tabV 2 v)))) / 2 := by
  have hb : evenSampler.basis = [cornerMove (0, 0) (1, 1)] := rfl
  have hmove : ∀ e, applyMove (tabV 2 v) (cornerMove (0, 0) (1, 1)) e = tabV 2 (v + e) := by
    intro e
    funext i j
    rw [corner_effect _ (by decide) (by decide)]
    fin_cases i <;> fin_cases j <;> simp [tabV] <;> ring
  have hnn : ∀ x, Nonneg (tabV 2 x) ↔ 0 ≤ x ∧ x ≤ 2 := by
    intro x
    unfold Nonneg tabV
    simp
    omega
  have hmean : ∀ e : Int, (e = -1 ∨ e = 1) → ∫⁻ u in Ioo (0 : ℝ) 1, psi ((evenSampler.step (tabV 2 v) (.one 0 e (Real.log u : ℝ))).map Prod.fst) =
      if 0 ≤ v + e ∧ v + e ≤ 2 then psi (some (tabV 2 (v + e))) else psi (some (tabV 2 v)) := by
    intro e he
    rw [one_step_mean evenSampler (fun _ _ => 0) rfl (tabV 2 v) ?_ 0 e (cornerMove (0, 0) (1, 1)) (by rw [hb]; rfl) ?_ ?_]
    · simp only [hmove, hnn, mul_zero, Finset.sum_const_zero, Real.exp_zero, ENNReal.ofReal_one, min_self, one_mul, tsub_self, zero_mul,
        add_zero]
    · intro i j; unfold tabV; split <;> omega
    · intro i j
      rw [hmove]
      unfold tabV
      split <;> omega
    · intro hn i j
      rw [hmove] at hn ⊢
      rw [hnn] at hn
      unfold tabV
      split <;> omega
  unfold oneMean
  simp only [hb, List.length_singleton, Finset.range_one, Finset.sum_singleton, Nat.cast_one, mul_one]
  rw [Finset.sum_pair (by decide), hmean (-1) (Or.inl rfl), hmean 1 (Or.inr rfl)]
  congr 2
  · by_cases h : 0 < v
    · rw [if_pos (by omega), if_pos h]; rfl
    · rw [if_neg (by omega), if_neg h]
  · by_cases h : v < 2
    · rw [if_pos (by omega), if_pos h]
    · rw [if_neg (by omega), if_neg h]

/-- **C95.** In general the degree-one step does not leave the target invariant: 2×2 tables with all margins `2`, equal intensities; started
from the target (weights `1/4, 1, 1/4`), one step moves the law. -/
theorem C95_degree_one_false : ∃ (s : Sampler 2 2) (w : Fin 2 → Fin 2 → ℝ) (F : Finset (Table 2 2)) (psi : Option (Table 2 2) → ℝ≥0∞),
    BothMargins s.constrained ∧ generateBasis s.constrained s.fixed (fun _ => 0) = some s.basis ∧ s.logI = some w ∧
    ↑F = MeetFibre s.constrained (fun _ => 2) (fun _ => 2) 4 s.fixed s.truth ∧
    ∑ t ∈ F, ENNReal.ofReal (target w t) * oneMean s t psi ≠ ∑ t ∈ F, ENNReal.ofReal (target w t) * psi (some t) := by
  classical
  refine ⟨evenSampler, fun _ _ => 0, {tabV 2 0, tabV 2 1, tabV 2 2}, fun o => if o = some (tabV 2 1) then 1 else 0, smallSampler_basis.1,
    smallSampler_basis.2, rfl, two_fibre 2 _ fun t => two_mem, ?_⟩
  have n01 : tabV 2 0 ≠ tabV 2 1 := by decide +kernel
  have n02 : tabV 2 0 ≠ tabV 2 2 := by decide +kernel
  have n12 : tabV 2 1 ≠ tabV 2 2 := by decide +kernel
  have t0 : target (fun _ _ => 0) (tabV 2 0) = 1 / 4 := by
    unfold target tabV; simp [Fin.prod_univ_two]; norm_num
  have t1 : target (fun _ _ => 0) (tabV 2 1) = 1 := by
    unfold target tabV; simp
  have t2 : target (fun _ _ => 0) (tabV 2 2) = 1 / 4 := by
    unfold target tabV; simp [Fin.prod_univ_two]; norm_num
  rw [Finset.sum_insert (by simp [n01, n02]), Finset.sum_insert (by simp [n12]), Finset.sum_singleton,
    Finset.sum_insert (by simp [n01, n02]), Finset.sum_insert (by simp [n12]), Finset.sum_singleton,
    even_mean 0 (by omega) (by omega), even_mean 1 (by omega) (by omega), even_mean 2 (by omega) (by omega), t0, t1, t2]
  simp only [zero_add, sub_self, Int.reduceAdd, Int.reduceSub, lt_irrefl, if_false, Int.reduceLT, if_true, Option.some.injEq, n01, n02,
    n12.symm, n01.symm, add_zero]
  have hq : ENNReal.ofReal (1 / 4) * (1 / 2) = ENNReal.ofReal (1 / 8) := by
    rw [show (1 / 2 : ℝ≥0∞) = ENNReal.ofReal (1 / 2) by
      rw [ENNReal.ofReal_div_of_pos (by norm_num)]; simp]
    rw [← ENNReal.ofReal_mul (by norm_num)]; norm_num
  simp only [hq, ENNReal.zero_div, mul_zero, zero_add, mul_one, add_zero]
  rw [← ENNReal.ofReal_add (by norm_num) (by norm_num)]
  intro h
  rw [ENNReal.ofReal_eq_ofReal_iff (by norm_num) (by norm_num)] at h
  norm_num at h

/-- Non-vacuity of C95: the 2×2 tables with all margins `1`, and those with all margins `2`. -/
example (psi : Option (Table 2 2) → ℝ≥0∞) :
    ∑ t ∈ {tabV 1 0, tabV 1 1}, ENNReal.ofReal (target (fun _ _ => 0) t) * oneMean evenSampler t psi =
      ∑ t ∈ {tabV 1 0, tabV 1 1}, ENNReal.ofReal (target (fun _ _ => 0) t) * psi (some t) :=
  C95_degree_one_partial evenSampler (Or.inr (Or.inr smallSampler_basis.1)) _ smallSampler_basis.2 (by simp [evenSampler, smallSampler]) _ rfl
    (fun _ => 1) (fun _ => 1) 2 _ (two_fibre 1 _ fun t => one_mem) (by
      intro t ht i j
      obtain ⟨v, h0, h1, rfl⟩ := one_mem.1 ht
      unfold tabV; split <;> omega) psi

example (psi : Option (Table 2 2) → ℝ≥0∞) :
    ∑ t ∈ {tabV 2 0, tabV 2 1, tabV 2 2}, ENNReal.ofReal (noFactorials (fun _ _ => 0) t) * oneMean evenSampler t psi =
      ∑ t ∈ {tabV 2 0, tabV 2 1, tabV 2 2}, ENNReal.ofReal (noFactorials (fun _ _ => 0) t) * psi (some t) :=
  C95_degree_one_exact evenSampler (Or.inr (Or.inr smallSampler_basis.1)) _ smallSampler_basis.2 (by simp [evenSampler, smallSampler]) _ rfl
    (fun _ => 2) (fun _ => 2) 4 _ (two_fibre 2 _ fun t => two_mem) (by
      intro t ht i j
      obtain ⟨v, h0, h1, rfl⟩ := two_mem.1 ht
      unfold tabV; split <;> omega) psi

end GeNSIT
