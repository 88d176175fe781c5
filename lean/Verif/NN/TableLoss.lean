import Verif.Stats.Likelihood

/-!
# C162: what intensity the table loss asks for

The custom loss `table_likelihood_loss` of joint training (`gensit/experiments.py:2558-2562`): minus the unnormalised log likelihood of the table's distribution
(`gensit/contingency_table/ContingencyTable_MCMC.py:288-291`, `gensit/utils/probability_utils.py:83-171`), evaluated at the table divided by its total and the log intensity minus the
log of the grand total (`gensit/experiments.py:2667, 2674-2682`).  Which distribution goes with which constraints is C19.  Single precision is not modelled.
-/

set_option linter.unusedSectionVars false

namespace GeNSIT

variable {I J : Type} [Fintype I] [Fintype J] [DecidableEq I] [DecidableEq J]

/-- `log_factorial_sum` of a table of reals (`probability_utils.py`): the sum of `lgamma (t + 1)`. -/
noncomputable def logGammaSum (T : I × J → ℝ) : ℝ := ∑ c, Real.log (Real.Gamma (T c + 1))

/-- The loss of tables without constraints: minus `log_poisson_pmf_unnormalised` (lines 83-85). -/
noncomputable def tableLossPoisson (T L : I × J → ℝ) : ℝ := -(-(∑ c, L c) + ∑ c, T c * L c - logGammaSum T)

/-- The loss of tables with given total: minus `log_multinomial_pmf_unnormalised` (lines 104-108). -/
noncomputable def tableLossTotal (T L : I × J → ℝ) : ℝ := -(∑ c, T c * (L c - Real.log (∑ d, Real.exp (L d))) - logGammaSum T)

/-- The loss of tables with given row sums: minus `log_product_multinomial_pmf_unnormalised` (lines 131-137). -/
noncomputable def tableLossRows (T L : I × J → ℝ) : ℝ := -(∑ c, T c * (L c - Real.log (∑ j, Real.exp (L (c.1, j)))) - logGammaSum T)

/-- The loss of tables with given row and column sums: minus `log_fishers_hypergeometric_pmf_unnormalised` (lines 164-171). -/
noncomputable def tableLossFisher (T L : I × J → ℝ) : ℝ := -(∑ c, T c * (logOddsRatio L c - Real.log (∑ d, Real.exp (logOddsRatio L d))) - logGammaSum T)

/-! ### Specification -/

/-- Cells have the same shares in intensity and table. -/
def Spec.SameShares {ι : Type} [Fintype ι] (T lam : ι → ℝ) : Prop := ∀ c, lam c * ∑ d, T d = T c * ∑ d, lam d

/-! ### Gibbs' inequality -/

/-- With weights `t` of total `N` and positive `q` of total one, `∑ t log q ≤ ∑ t log (t/N)`. -/
theorem gibbs_le {ι : Type} [Fintype ι] (t q : ι → ℝ) (ht : ∀ c, 0 ≤ t c) (hq : ∀ c, 0 < q c) (hq1 : ∑ c, q c = 1) :
    ∑ c, t c * Real.log (q c) ≤ ∑ c, t c * Real.log (t c / ∑ d, t d) := by
  set N : ℝ := ∑ d, t d with hN
  have hN0 : 0 ≤ N := Finset.sum_nonneg fun c _ => ht c
  have key : ∀ c, t c * Real.log (q c) - t c * Real.log (t c / N) ≤ N * q c - t c := by
    intro c
    rcases (ht c).eq_or_lt with h | h
    · rw [← h]; simpa using mul_nonneg hN0 (hq c).le
    · have hNp : 0 < N := lt_of_lt_of_le h (Finset.single_le_sum (fun c _ => ht c) (Finset.mem_univ c))
      have h1 : Real.log (q c) - Real.log (t c / N) = Real.log (q c / (t c / N)) := (Real.log_div (hq c).ne' (div_pos h hNp).ne').symm
      have h2 : Real.log (q c / (t c / N)) ≤ q c / (t c / N) - 1 := Real.log_le_sub_one_of_pos (div_pos (hq c) (div_pos h hNp))
      calc t c * Real.log (q c) - t c * Real.log (t c / N) = t c * (Real.log (q c) - Real.log (t c / N)) := by ring
        _ ≤ t c * (q c / (t c / N) - 1) := by rw [h1]; exact mul_le_mul_of_nonneg_left h2 h.le
        _ = N * q c - t c := by field_simp
  have := Finset.sum_le_sum fun c (_ : c ∈ Finset.univ) => key c
  rw [Finset.sum_sub_distrib, Finset.sum_sub_distrib, ← Finset.mul_sum, hq1, ← hN] at this
  linarith

/-- Equality holds only if the shares agree. -/
theorem gibbs_eq {ι : Type} [Fintype ι] (t q : ι → ℝ) (ht : ∀ c, 0 ≤ t c) (hq : ∀ c, 0 < q c) (hq1 : ∑ c, q c = 1)
    (he : ∑ c, t c * Real.log (q c) = ∑ c, t c * Real.log (t c / ∑ d, t d)) (c : ι) : (∑ d, t d) * q c = t c := by
  set N : ℝ := ∑ d, t d with hN
  have hN0 : 0 ≤ N := Finset.sum_nonneg fun c _ => ht c
  have key : ∀ c, t c * Real.log (q c) - t c * Real.log (t c / N) ≤ N * q c - t c ∧
      (t c * Real.log (q c) - t c * Real.log (t c / N) = N * q c - t c → N * q c = t c) := by
    intro c
    rcases (ht c).eq_or_lt with h | h
    · rw [← h]
      refine ⟨by simpa using mul_nonneg hN0 (hq c).le, fun h1 => ?_⟩
      simp only [zero_mul, sub_zero] at h1
      exact h1.symm
    · have hNp : 0 < N := lt_of_lt_of_le h (Finset.single_le_sum (fun c _ => ht c) (Finset.mem_univ c))
      have hx : 0 < q c / (t c / N) := div_pos (hq c) (div_pos h hNp)
      have h1 : Real.log (q c) - Real.log (t c / N) = Real.log (q c / (t c / N)) := (Real.log_div (hq c).ne' (div_pos h hNp).ne').symm
      have h3 : t c * (q c / (t c / N) - 1) = N * q c - t c := by field_simp
      have h4 : t c * Real.log (q c) - t c * Real.log (t c / N) = t c * Real.log (q c / (t c / N)) := by rw [← h1]; ring
      refine ⟨?_, fun h5 => ?_⟩
      · rw [h4, ← h3]
        exact mul_le_mul_of_nonneg_left (Real.log_le_sub_one_of_pos hx) h.le
      · by_contra hne
        have hx1 : q c / (t c / N) ≠ 1 := by
          intro h6
          rw [h6] at h3
          apply hne
          linarith
        have := Real.log_lt_sub_one_of_pos hx hx1
        rw [h4, ← h3] at h5
        exact absurd (mul_left_cancel₀ h.ne' h5) this.ne
  have hs : ∑ c, (t c * Real.log (q c) - t c * Real.log (t c / N)) = ∑ c, (N * q c - t c) := by
    rw [Finset.sum_sub_distrib, Finset.sum_sub_distrib, ← Finset.mul_sum, hq1, ← hN, he]
    ring
  have := (Finset.sum_eq_sum_iff_of_le fun c _ => (key c).1).1 hs c (Finset.mem_univ c)
  exact (key c).2 this

/-! ### Theorems -/

theorem log_share (L : I × J → ℝ) (s : Finset (I × J)) (c : I × J) (hc : c ∈ s) :
    L c - Real.log (∑ d ∈ s, Real.exp (L d)) = Real.log (Real.exp (L c) / ∑ d ∈ s, Real.exp (L d)) := by
  rw [Real.log_div (Real.exp_pos _).ne' (Finset.sum_pos (fun d _ => Real.exp_pos _) ⟨c, hc⟩).ne', Real.log_exp]

theorem log_row_share (L : I × J → ℝ) (c : I × J) :
    L c - Real.log (∑ j, Real.exp (L (c.1, j))) = Real.log (Real.exp (L c) / ∑ j, Real.exp (L (c.1, j))) := by
  rw [Real.log_div (Real.exp_pos _).ne' (Finset.sum_pos (fun d _ => Real.exp_pos _) ⟨c.2, Finset.mem_univ _⟩).ne', Real.log_exp]

/-- **C162 (given total).** For tables with given total the loss is smallest exactly at the intensities whose cells have the shares of the table: there is a lower bound that
depends on the table only and is attained at these intensities and nowhere else. -/
theorem C162_total [Nonempty I] [Nonempty J] (T : I × J → ℝ) (hT : ∀ c, 0 ≤ T c) (L : I × J → ℝ) :
    -(∑ c, T c * Real.log (T c / ∑ d, T d)) + logGammaSum T ≤ tableLossTotal T L ∧
      (tableLossTotal T L = -(∑ c, T c * Real.log (T c / ∑ d, T d)) + logGammaSum T ↔ Spec.SameShares T fun c => Real.exp (L c)) := by
  set Z : ℝ := ∑ d, Real.exp (L d) with hZ
  have hZp : 0 < Z := Finset.sum_pos (fun d _ => Real.exp_pos _) Finset.univ_nonempty
  set q : I × J → ℝ := fun c => Real.exp (L c) / Z with hq
  have hqp : ∀ c, 0 < q c := fun c => div_pos (Real.exp_pos _) hZp
  have hq1 : ∑ c, q c = 1 := by rw [hq, ← Finset.sum_div, ← hZ, div_self hZp.ne']
  have hl : tableLossTotal T L = -(∑ c, T c * Real.log (q c)) + logGammaSum T := by
    unfold tableLossTotal
    rw [← hZ]
    have : ∀ c, L c - Real.log Z = Real.log (q c) := fun c => log_share L Finset.univ c (Finset.mem_univ c)
    simp only [this]
    ring
  rw [hl]
  refine ⟨by linarith [gibbs_le T q hT hqp hq1], ?_⟩
  constructor
  · intro h c
    have := gibbs_eq T q hT hqp hq1 (by linarith) c
    change Real.exp (L c) * ∑ d, T d = T c * Z
    rw [← this, hq]
    field_simp
  · intro h
    have hc : ∀ c, Real.exp (L c) * ∑ d, T d = T c * Z := h
    congr 2
    refine Finset.sum_congr rfl fun c _ => ?_
    by_cases hN : ∑ d, T d = 0
    · rw [(Finset.sum_eq_zero_iff_of_nonneg fun c _ => hT c).1 hN c (Finset.mem_univ c)]
      simp
    · congr 2
      rw [hq]
      rw [div_eq_div_iff hZp.ne' hN]
      exact hc c

/-- **C162 (given row sums).** For tables with given row sums the loss is smallest exactly at the intensities each of whose rows has the shares of the table's row. -/
theorem C162_rows [Nonempty J] (T : I × J → ℝ) (hT : ∀ c, 0 ≤ T c) (L : I × J → ℝ) :
    -(∑ c, T c * Real.log (T c / ∑ j, T (c.1, j))) + logGammaSum T ≤ tableLossRows T L ∧
      (tableLossRows T L = -(∑ c, T c * Real.log (T c / ∑ j, T (c.1, j))) + logGammaSum T ↔
        ∀ i, Spec.SameShares (fun j => T (i, j)) fun j => Real.exp (L (i, j))) := by
  set Z : I → ℝ := fun i => ∑ j, Real.exp (L (i, j)) with hZ
  have hZp : ∀ i, 0 < Z i := fun i => Finset.sum_pos (fun d _ => Real.exp_pos _) Finset.univ_nonempty
  set q : I → J → ℝ := fun i j => Real.exp (L (i, j)) / Z i with hq
  have hqp : ∀ i j, 0 < q i j := fun i j => div_pos (Real.exp_pos _) (hZp i)
  have hq1 : ∀ i, ∑ j, q i j = 1 := fun i => by
    rw [hq]
    simp only
    rw [← Finset.sum_div]
    exact div_self (hZp i).ne'
  have hl : tableLossRows T L = -(∑ i, ∑ j, T (i, j) * Real.log (q i j)) + logGammaSum T := by
    unfold tableLossRows
    simp only [log_row_share L]
    rw [Fintype.sum_prod_type]
    ring
  have hle : ∀ i, ∑ j, T (i, j) * Real.log (q i j) ≤ ∑ j, T (i, j) * Real.log (T (i, j) / ∑ j', T (i, j')) := fun i =>
    gibbs_le (fun j => T (i, j)) (q i) (fun j => hT _) (hqp i) (hq1 i)
  rw [hl, Fintype.sum_prod_type]
  simp only
  refine ⟨by linarith [Finset.sum_le_sum fun i (_ : i ∈ Finset.univ) => hle i], ?_⟩
  constructor
  · intro h i j
    have hs := (Finset.sum_eq_sum_iff_of_le fun i (_ : i ∈ Finset.univ) => hle i).1 (by linarith) i (Finset.mem_univ i)
    have := gibbs_eq (fun j => T (i, j)) (q i) (fun j => hT _) (hqp i) (hq1 i) hs j
    change Real.exp (L (i, j)) * ∑ d, T (i, d) = T (i, j) * Z i
    rw [← this, hq]
    have := (hZp i).ne'
    field_simp
  · intro h
    congr 2
    refine Finset.sum_congr rfl fun i _ => Finset.sum_congr rfl fun j _ => ?_
    have hc : Real.exp (L (i, j)) * ∑ d, T (i, d) = T (i, j) * Z i := h i j
    by_cases hN : ∑ d, T (i, d) = 0
    · rw [(Finset.sum_eq_zero_iff_of_nonneg fun j _ => hT (i, j)).1 hN j (Finset.mem_univ j)]
      simp
    · congr 2
      rw [hq]
      simp only
      rw [div_eq_div_iff (hZp i).ne' hN]
      exact hc

/-- **C162 is false for tables without constraints**: whatever the table (normalised, at least two cells), the loss takes arbitrarily small values on normalised intensities; there is
no smallest one. -/
theorem C162_poisson_unbounded (T : I × J → ℝ) (hT : ∀ c, 0 ≤ T c) (h1 : ∑ c, T c = 1) (c0 c1 : I × J) (hne : c0 ≠ c1) (b : ℝ) :
    ∃ L : I × J → ℝ, ∑ c, Real.exp (L c) = 1 ∧ tableLossPoisson T L < b := by
  classical
  have hle : ∀ c, T c ≤ 1 := fun c => by rw [← h1]; exact Finset.single_le_sum (fun c _ => hT c) (Finset.mem_univ c)
  -- a cell with less than everything
  obtain ⟨c, hc⟩ : ∃ c, T c < 1 := by
    by_contra hno
    push Not at hno
    have h2 : T c0 + T c1 ≤ ∑ c, T c := by
      rw [← Finset.sum_pair hne]
      exact Finset.sum_le_sum_of_subset_of_nonneg (Finset.subset_univ _) fun c _ _ => hT c
    linarith [hno c0, hno c1]
  set G : ℝ := logGammaSum T
  set m : ℝ := ((Finset.univ.erase c).card : ℝ) with hm
  have hmp : 1 ≤ m := by
    rw [hm]
    have : (Finset.univ.erase c).Nonempty := by
      by_cases h : c = c0
      · exact ⟨c1, by simp [h, hne.symm]⟩
      · exact ⟨c0, by simp [Ne.symm h]⟩
    exact_mod_cast this.card_pos
  -- how small the intensity of that cell has to be
  obtain ⟨e, he0, he1, heb⟩ : ∃ e : ℝ, 0 < e ∧ e < 1 ∧ (1 - T c) * Real.log e < b - G := by
    have hp : 0 < 1 - T c := by linarith
    set y : ℝ := min ((b - G) / (1 - T c) - 1) (-1) with hy
    have hy1 : y ≤ -1 := min_le_right _ _
    refine ⟨Real.exp y, Real.exp_pos _, by rw [← Real.exp_zero]; exact Real.exp_lt_exp.2 (by linarith), ?_⟩
    rw [Real.log_exp]
    have : y < (b - G) / (1 - T c) := by linarith [min_le_left ((b - G) / (1 - T c) - 1) (-1 : ℝ)]
    calc (1 - T c) * y < (1 - T c) * ((b - G) / (1 - T c)) := mul_lt_mul_of_pos_left this hp
      _ = b - G := by field_simp
  have hr : 0 < (1 - e) / m := div_pos (by linarith) (by linarith)
  have hr1 : (1 - e) / m ≤ 1 := by
    rw [div_le_one (by linarith)]
    linarith
  refine ⟨fun d => if d = c then Real.log e else Real.log ((1 - e) / m), ?_, ?_⟩
  · beta_reduce
    rw [← Finset.add_sum_erase _ _ (Finset.mem_univ c)]
    have hd : ∀ d ∈ Finset.univ.erase c, Real.exp (if d = c then Real.log e else Real.log ((1 - e) / m)) = (1 - e) / m := fun d hd => by
      rw [if_neg (Finset.ne_of_mem_erase hd), Real.exp_log hr]
    rw [Finset.sum_congr rfl hd, Finset.sum_const, nsmul_eq_mul, if_pos rfl, Real.exp_log he0, ← hm]
    field_simp
    ring
  · have hx : tableLossPoisson T (fun d => if d = c then Real.log e else Real.log ((1 - e) / m)) =
        (∑ d, (1 - T d) * (if d = c then Real.log e else Real.log ((1 - e) / m))) + G := by
      unfold tableLossPoisson
      simp only [sub_mul, one_mul, Finset.sum_sub_distrib]
      ring
    rw [hx, ← Finset.add_sum_erase _ _ (Finset.mem_univ c), if_pos rfl]
    have : ∑ d ∈ Finset.univ.erase c, (1 - T d) * (if d = c then Real.log e else Real.log ((1 - e) / m)) ≤ 0 := by
      refine Finset.sum_nonpos fun d hd => ?_
      rw [if_neg (Finset.ne_of_mem_erase hd)]
      exact mul_nonpos_of_nonneg_of_nonpos (by linarith [hle d]) (Real.log_nonpos hr.le hr1)
    linarith

/-- **C162 is false for tables without constraints**, as a negation: the intensity that equals the table does not minimise the loss. -/
theorem C162_poisson_false : ¬ ∀ (T L : Fin 1 × Fin 2 → ℝ), (∀ c, 0 < T c) → ∑ c, T c = 1 → ∑ c, Real.exp (L c) = 1 →
    tableLossPoisson T (fun c => Real.log (T c)) ≤ tableLossPoisson T L := by
  intro h
  obtain ⟨L, h1, h2⟩ := C162_poisson_unbounded (I := Fin 1) (J := Fin 2) (fun _ => 1 / 2) (fun _ => by norm_num) (by simp) (0, 0) (0, 1) (by simp)
    (tableLossPoisson (I := Fin 1) (J := Fin 2) (fun _ => 1 / 2) fun _ => Real.log (1 / 2))
  exact absurd (h (fun _ => 1 / 2) L (fun _ => by norm_num) (by simp) h1) (not_le.2 h2)

/-- An intensity with the shares of a table. -/
example : Spec.SameShares (fun c : Fin 2 => if c = 0 then (1 / 4 : ℝ) else 3 / 4) fun c => if c = 0 then 1 else 3 := by
  intro c
  fin_cases c <;> simp [Fin.sum_univ_two] <;> norm_num

/-- A table of the examples: one trip and three. -/
def oneThree : Fin 1 × Fin 2 → ℝ := fun c => if c.2 = 0 then 1 else 3

example (L : Fin 1 × Fin 2 → ℝ) : tableLossTotal oneThree (fun c => if c.2 = 0 then 0 else Real.log 3) ≤ tableLossTotal oneThree L := by
  have h : ∀ c, 0 ≤ oneThree c := fun c => by unfold oneThree; split <;> norm_num
  have h1 := (C162_total _ h L).1
  rw [((C162_total _ h fun c => if c.2 = 0 then 0 else Real.log 3).2).2]
  · exact h1
  · rintro ⟨i, j⟩
    fin_cases i; fin_cases j <;> simp [oneThree, Fintype.sum_prod_type, Fin.sum_univ_two, Real.exp_log]

/-! ### Row and column sums -/

/-- The log odds ratio of the logarithm of a positive intensity. -/
theorem logOddsRatio_log [Nonempty I] [Nonempty J] (lam : I × J → ℝ) (h : ∀ c, 0 < lam c) (c : I × J) :
    logOddsRatio (fun c => Real.log (lam c)) c = Real.log (lam c * (∑ i, ∑ j, lam (i, j)) / ((∑ j, lam (c.1, j)) * ∑ i, lam (i, c.2))) := by
  have hr : ∀ i, 0 < ∑ j, lam (i, j) := fun i => Finset.sum_pos (fun j _ => h _) Finset.univ_nonempty
  have hc : ∀ j, 0 < ∑ i, lam (i, j) := fun j => Finset.sum_pos (fun i _ => h _) Finset.univ_nonempty
  have ht : 0 < ∑ i, ∑ j, lam (i, j) := Finset.sum_pos (fun i _ => hr i) Finset.univ_nonempty
  unfold logOddsRatio
  simp only [Real.exp_log (h _), Real.exp_log (hr _)]
  rw [Real.log_div (mul_pos (h c) ht).ne' (mul_pos (hr _) (hc _)).ne', Real.log_mul (h c).ne' ht.ne', Real.log_mul (hr _).ne' (hc _).ne']
  ring

/-- The table of the witness: one trip in every cell but three in the last, divided by the total. -/
noncomputable def fisherTable : Fin 2 × Fin 2 → ℝ := fun c => if c = (1, 1) then 1 / 2 else 1 / 6

/-- The intensity that beats it: three trips in the first cell. -/
noncomputable def fisherOther : Fin 2 × Fin 2 → ℝ := fun c => if c = (0, 0) then 1 / 2 else 1 / 6

/-- **C162 is false for tables with given row and column sums**: another intensity has a smaller loss than the one that equals the table. -/
theorem C162_fisher_false : ¬ ∀ (T lam : Fin 2 × Fin 2 → ℝ), (∀ c, 0 < T c) → ∑ c, T c = 1 → (∀ c, 0 < lam c) → ∑ c, lam c = 1 →
    tableLossFisher T (fun c => Real.log (T c)) ≤ tableLossFisher T (fun c => Real.log (lam c)) := by
  intro h
  have hp : ∀ c, 0 < fisherTable c := fun c => by unfold fisherTable; split <;> norm_num
  have hp' : ∀ c, 0 < fisherOther c := fun c => by unfold fisherOther; split <;> norm_num
  have h1 := h fisherTable fisherOther hp (by simp [fisherTable, Fintype.sum_prod_type, Fin.sum_univ_two]; norm_num) hp'
    (by simp [fisherOther, Fintype.sum_prod_type, Fin.sum_univ_two]; norm_num)
  unfold tableLossFisher at h1
  simp only [logOddsRatio_log _ hp, logOddsRatio_log _ hp', Fintype.sum_prod_type, Fin.sum_univ_two] at h1
  simp only [fisherTable, fisherOther, Prod.mk.injEq, if_true, true_and, and_true, and_self] at h1
  norm_num at h1
  have hs : Real.exp (Real.log (3 / 2)) + Real.exp (Real.log (3 / 4)) + (Real.exp (Real.log (3 / 4)) + Real.exp (Real.log (9 / 8))) =
      Real.exp (Real.log (9 / 8)) + Real.exp (Real.log (3 / 4)) + (Real.exp (Real.log (3 / 4)) + Real.exp (Real.log (3 / 2))) := by ring
  rw [hs] at h1
  have hlt : Real.log (9 / 8) < Real.log (3 / 2) := Real.log_lt_log (by norm_num) (by norm_num)
  linarith

end GeNSIT
