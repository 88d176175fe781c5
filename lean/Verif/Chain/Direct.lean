import Verif.Chain.DegreeOne
import Verif.Init.Model
import Mathlib.Data.Nat.Choose.Multinomial
import Mathlib.Analysis.SpecificLimits.Basic

/-!
# C96, C97: the law of the direct samplers
-/

open scoped BigOperators

namespace GeNSIT

open Spec

/-! ## C96: the rejection loop -/

/-- The probability that the rejection loop of `direct_sampling_proposal_2way_table` / `product_multinomial_sample_2way_table`
(`ContingencyTable_MCMC.py:551-586`, `:480-512`) has returned `t` after at most `N` draws: the draws are independent with law `p` on the tables `S`. -/
noncomputable def loopProb {m n : Nat} (adm : Table m n → Option Bool) (S : Finset (Table m n)) (p : Table m n → ℝ) (N : Nat)
    (t : Table m n) : ℝ :=
  ∑ outs ∈ Fintype.piFinset (fun _ : Fin N => S), if rejectionLoop adm (List.ofFn outs) = some t then ∏ k, p (outs k) else 0

theorem loopProb_zero {m n : Nat} (adm : Table m n → Option Bool) (S : Finset (Table m n)) (p : Table m n → ℝ) (t : Table m n) :
    loopProb adm S p 0 t = 0 := by
  unfold loopProb
  simp [rejectionLoop]

theorem sum_prod_one {α : Type} [DecidableEq α] (S : Finset α) (p : α → ℝ) (hp : ∑ x ∈ S, p x = 1) (N : Nat) :
    ∑ outs ∈ Fintype.piFinset (fun _ : Fin N => S), ∏ k, p (outs k) = 1 := by
  rw [← Finset.prod_univ_sum]
  simp [hp]

theorem sum_piFinset_succ {α : Type} [DecidableEq α] (S : Finset α) (N : Nat) (f : (Fin (N + 1) → α) → ℝ) :
    ∑ outs ∈ Fintype.piFinset (fun _ : Fin (N + 1) => S), f outs =
      ∑ x ∈ S, ∑ outs ∈ Fintype.piFinset (fun _ : Fin N => S), f (Fin.cons x outs) := by
  rw [← Finset.sum_product']
  refine Finset.sum_bij' (fun o _ => (o 0, Fin.tail o)) (fun x _ => Fin.cons x.1 x.2) ?_ ?_ ?_ ?_ ?_
  · intro o ho
    rw [Fintype.mem_piFinset] at ho
    rw [Finset.mem_product, Fintype.mem_piFinset]
    exact ⟨ho 0, fun k => ho k.succ⟩
  · rintro ⟨x, o⟩ ho
    rw [Finset.mem_product, Fintype.mem_piFinset] at ho
    rw [Fintype.mem_piFinset]
    intro k
    refine Fin.cases ?_ (fun k => ?_) k
    · exact ho.1
    · exact ho.2 k
  · intro o _; simp
  · rintro ⟨x, o⟩ _; simp
  · intro o _; simp

theorem loopProb_succ {m n : Nat} (adm : Table m n → Option Bool) (hadm : ∀ t, adm t ≠ none) (S : Finset (Table m n)) (p : Table m n → ℝ)
    (hp : ∑ x ∈ S, p x = 1) (N : Nat) (t : Table m n) :
    loopProb adm S p (N + 1) t = (if t ∈ S ∧ adm t = some true then p t else 0) +
      (∑ x ∈ S.filter (fun x => adm x = some false), p x) * loopProb adm S p N t := by
  unfold loopProb
  rw [sum_piFinset_succ]
  have hx : ∀ x ∈ S, (∑ outs ∈ Fintype.piFinset (fun _ : Fin N => S),
      if rejectionLoop adm (List.ofFn (Fin.cons x outs : Fin (N + 1) → Table m n)) = some t then
        ∏ k, p ((Fin.cons x outs : Fin (N + 1) → Table m n) k) else 0) =
      (if x = t then (if adm t = some true then p t else 0) else 0) +
      (if adm x = some false then p x * ∑ outs ∈ Fintype.piFinset (fun _ : Fin N => S),
        if rejectionLoop adm (List.ofFn outs) = some t then ∏ k, p (outs k) else 0 else 0) := by
    intro x _
    simp only [List.ofFn_cons, rejectionLoop, Fin.prod_univ_succ, Fin.cons_zero, Fin.cons_succ]
    cases h : adm x with
    | none => exact absurd h (hadm x)
    | some b =>
      cases b with
      | true =>
        simp only [Option.some.injEq, Bool.true_eq_false, if_false, add_zero]
        by_cases e : x = t
        · subst e
          simp only [if_true, h, ← Finset.mul_sum, sum_prod_one S p hp N, mul_one]
        · simp [e]
      | false =>
        simp only [if_true]
        have : (if x = t then (if adm t = some true then p t else 0) else 0) = 0 := by
          by_cases e : x = t
          · subst e; simp [h]
          · simp [e]
        rw [this, zero_add, Finset.mul_sum]
        exact Finset.sum_congr rfl fun o _ => by split <;> simp
  rw [Finset.sum_congr rfl hx, Finset.sum_add_distrib]
  congr 1
  · rw [Finset.sum_ite_eq' S t]
    by_cases h1 : t ∈ S <;> by_cases h2 : adm t = some true <;> simp [h1, h2]
  · rw [Finset.sum_mul, Finset.sum_filter]

/-- **C96.** Independent draws from any law with finite support: after at most `N` draws the rejection loop has returned the admissible table
`t` with probability `p(t) · (1 + r + … + r^(N-1))`, `r` the probability of an inadmissible draw, and never returns an inadmissible one. -/
theorem C96_after {m n : Nat} (margins : Margins) (row : Fin m → Int) (col : Fin n → Int) (tot : Int) (hm : Stores margins row col tot)
    (constrained : List Ax) (hc : TwoWay constrained) (fixed : List (Cell m n)) (truth : Table m n)
    (S : Finset (Table m n)) (p : Table m n → ℝ) (hp : ∑ x ∈ S, p x = 1) (N : Nat) (t : Table m n) :
    (t ∈ S → Meets constrained row col tot fixed truth t → loopProb (tableAdmissible truth margins constrained fixed) S p N t =
      p t * ∑ k ∈ Finset.range N, (open Classical in
        (∑ x ∈ S.filter (fun x => ¬ Meets constrained row col tot fixed truth x), p x) ^ k)) ∧
    (¬ Meets constrained row col tot fixed truth t → loopProb (tableAdmissible truth margins constrained fixed) S p N t = 0) := by
  classical
  set adm := tableAdmissible truth margins constrained fixed with hadef
  have hiff : ∀ x, (adm x = some true ↔ Meets constrained row col tot fixed truth x) ∧
      (adm x = some false ↔ ¬ Meets constrained row col tot fixed truth x) ∧ adm x ≠ none := by
    intro x
    obtain ⟨b, hb, h⟩ := C20_table_admissible_iff margins row col tot hm constrained hc fixed truth x
    rw [← hadef] at hb
    cases b with
    | true => simp [hb, h.1 rfl]
    | false =>
      have : ¬ Meets constrained row col tot fixed truth x := fun hh => by simpa using h.2 hh
      simp [hb, this]
  have hrec := loopProb_succ adm (fun x => (hiff x).2.2) S p hp
  have hfil : S.filter (fun x => adm x = some false) = S.filter (fun x => ¬ Meets constrained row col tot fixed truth x) :=
    Finset.filter_congr fun x _ => (hiff x).2.1
  constructor
  · intro hS hM
    induction N with
    | zero => simp [loopProb_zero]
    | succ N ih =>
      rw [hrec, ih, hfil, if_pos ⟨hS, (hiff t).1.2 hM⟩, Finset.sum_range_succ']
      simp only [pow_succ, pow_zero, ← Finset.sum_mul]
      ring
  · intro hM
    induction N with
    | zero => simp [loopProb_zero]
    | succ N ih =>
      rw [hrec, ih, if_neg fun h => hM ((hiff t).1.1 h.2)]
      simp

/-- **C96.** If some admissible table can be drawn, the loop returns with probability one and the table it returns has the law of a draw
conditioned on meeting the constraints. -/
theorem C96_conditional_law {m n : Nat} (margins : Margins) (row : Fin m → Int) (col : Fin n → Int) (tot : Int)
    (hm : Stores margins row col tot) (constrained : List Ax) (hc : TwoWay constrained) (fixed : List (Cell m n)) (truth : Table m n)
    (S : Finset (Table m n)) (p : Table m n → ℝ) (hp0 : ∀ x, 0 ≤ p x) (hp : ∑ x ∈ S, p x = 1)
    (hsome : ∃ x ∈ S, Meets constrained row col tot fixed truth x ∧ 0 < p x) (t : Table m n) (ht : t ∈ S)
    (hM : Meets constrained row col tot fixed truth t) :
    Filter.Tendsto (fun N => loopProb (tableAdmissible truth margins constrained fixed) S p N t) Filter.atTop
      (nhds (p t / (open Classical in ∑ x ∈ S.filter (fun x => Meets constrained row col tot fixed truth x), p x))) := by
  classical
  set r := ∑ x ∈ S.filter (fun x => ¬ Meets constrained row col tot fixed truth x), p x with hr
  set a := ∑ x ∈ S.filter (fun x => Meets constrained row col tot fixed truth x), p x with ha
  have hsum : a + r = 1 := by
    rw [ha, hr, Finset.sum_filter_add_sum_filter_not, hp]
  have ha0 : 0 < a := by
    obtain ⟨x, hx, hmx, hpx⟩ := hsome
    exact Finset.sum_pos' (fun y _ => hp0 y) ⟨x, by simp [hx, hmx], hpx⟩
  have hr0 : 0 ≤ r := Finset.sum_nonneg fun y _ => hp0 y
  have hr1 : r < 1 := by linarith
  have hgeo := (hasSum_geometric_of_lt_one hr0 hr1).tendsto_sum_nat
  have := hgeo.const_mul (p t)
  rw [show (1 - r)⁻¹ = a⁻¹ by rw [← hsum]; ring_nf] at this
  rw [div_eq_mul_inv]
  refine this.congr fun N => ?_
  rw [(C96_after margins row col tot hm constrained hc fixed truth S p hp N t).1 ht hM]

/-! ## C97: the multinomial samplers -/

/-- The probability `torch.distributions.multinomial.Multinomial(total_count = N, probs = probs)` gives to the counts `d`
(the weights `probs` are normalised by torch). -/
noncomputable def multinomialPmf (N : Nat) (probs : List ℝ) (d : List Int) : ℝ :=
  if d.length = probs.length ∧ (∀ x ∈ d, 0 ≤ x) ∧ d.sum = N then
    N.factorial * ((probs.zip d).map fun pk => (pk.1 / probs.sum) ^ pk.2.toNat / (pk.2.toNat.factorial : ℝ)).prod
  else 0

/-- The weights passed to the multinomial when only the total is constrained (`ContingencyTable_MCMC.py:528-549`, `:440-444`): the intensities of the
free cells over the total intensity. -/
noncomputable def multinomialProbs {m n : Nat} (w : Fin m → Fin n → ℝ) (fixed : List (Cell m n)) : List ℝ :=
  (freeCells fixed).map fun c => Real.exp (w c.1 c.2 - Real.log (∑ i, ∑ j, Real.exp (w i j)))

/-- The weights of row `i` when the row sums are constrained (`ContingencyTable_MCMC.py:531-549`, `utils/probability_utils.py:344-350`), no fixed cells. -/
noncomputable def rowProbs {m n : Nat} (w : Fin m → Fin n → ℝ) (i : Fin m) : List ℝ :=
  (groupCells (m := m) (n := n) [] true i.val).map fun c => Real.exp (w c.1 c.2 - Real.log (∑ j, Real.exp (w c.1 j)))

theorem multinomial_sum {α : Type} [DecidableEq α] (S : Finset α) (f : α → ℝ) (N : Nat) :
    ∑ k ∈ Finset.piAntidiag S N, ∏ c ∈ S, f c ^ k c / ((k c).factorial : ℝ) = (∑ c ∈ S, f c) ^ N / (N.factorial : ℝ) := by
  rw [Finset.sum_pow_eq_sum_piAntidiag, Finset.sum_div]
  refine Finset.sum_congr rfl fun k hk => ?_
  obtain ⟨h1, _⟩ := Finset.mem_piAntidiag.1 hk
  have hs := Nat.multinomial_spec S k
  rw [h1] at hs
  have hs' : (∏ c ∈ S, ((k c).factorial : ℝ)) * (Nat.multinomial S k : ℝ) = (N.factorial : ℝ) := by exact_mod_cast hs
  have hN : (N.factorial : ℝ) ≠ 0 := by positivity
  have hP : (∏ c ∈ S, ((k c).factorial : ℝ)) ≠ 0 := Finset.prod_ne_zero_iff.2 fun c _ => by positivity
  rw [Finset.prod_div_distrib, div_eq_div_iff hP hN, ← hs']
  ring

theorem multinomialPmf_cells {α : Type} [DecidableEq α] (cells : List α) (hnd : cells.Nodup) (f : α → ℝ) (z : ℝ) (hz : 0 < z)
    (hf : ∀ c, 0 < f c) (N : Nat) (d : α → Int) (hd : ∀ c ∈ cells, 0 ≤ d c) (hsum : (cells.map d).sum = N) :
    multinomialPmf N (cells.map fun c => f c / z) (cells.map d) * ((∑ c ∈ cells.toFinset, f c) ^ N / (N.factorial : ℝ)) =
      ∏ c ∈ cells.toFinset, f c ^ (d c).toNat / ((d c).toNat.factorial : ℝ) := by
  unfold multinomialPmf
  rw [if_pos ⟨by simp, by intro x hx; obtain ⟨c, hc, rfl⟩ := List.mem_map.1 hx; exact hd c hc, hsum⟩]
  have hprobs : (cells.map fun c => f c / z).sum = (∑ c ∈ cells.toFinset, f c) / z := by
    rw [List.sum_toFinset _ hnd]
    simp only [div_eq_mul_inv, List.sum_map_mul_right]
  set T := ∑ c ∈ cells.toFinset, f c with hT
  rw [hprobs, List.zip_map', List.map_map]
  have hzip : (cells.map ((fun pk : ℝ × Int => (pk.1 / (T / z)) ^ pk.2.toNat / (pk.2.toNat.factorial : ℝ)) ∘ fun c => (f c / z, d c))).prod =
      ∏ c ∈ cells.toFinset, (f c / T) ^ (d c).toNat / ((d c).toNat.factorial : ℝ) := by
    rw [List.prod_toFinset _ hnd]
    congr 1
    refine List.map_congr_left fun c _ => ?_
    simp only [Function.comp]
    congr 2
    field_simp
  rw [hzip]
  have hNsum : ∑ c ∈ cells.toFinset, (d c).toNat = N := by
    have : (∑ c ∈ cells.toFinset, d c) = N := by rw [List.sum_toFinset _ hnd, hsum]
    have e : ((∑ c ∈ cells.toFinset, (d c).toNat : Nat) : Int) = ∑ c ∈ cells.toFinset, d c := by
      push_cast
      exact Finset.sum_congr rfl fun c hc => Int.toNat_of_nonneg (hd c (List.mem_toFinset.1 hc))
    omega
  by_cases h0 : cells = []
  · subst h0
    have : N = 0 := by simpa using hsum.symm
    subst this
    simp
  have hTpos : 0 < T := Finset.sum_pos (fun c _ => hf c) (by simpa using h0)
  have hfac : ∏ c ∈ cells.toFinset, (f c / T) ^ (d c).toNat / ((d c).toNat.factorial : ℝ) =
      (∏ c ∈ cells.toFinset, f c ^ (d c).toNat / ((d c).toNat.factorial : ℝ)) / T ^ N := by
    rw [← hNsum, ← Finset.prod_pow_eq_pow_sum, ← Finset.prod_div_distrib]
    refine Finset.prod_congr rfl fun c _ => ?_
    rw [div_pow]
    field_simp
  rw [hfac]
  have : (N.factorial : ℝ) ≠ 0 := by positivity
  field_simp

theorem prod_cells {m n : Nat} (f : Cell m n → ℝ) : ∏ i, ∏ j, f (i, j) = ∏ c, f c := by
  exact (Fintype.prod_prod_type f).symm

/-- The target splits into fixed and free cells. -/
theorem target_split {m n : Nat} (w : Fin m → Fin n → ℝ) (fixed : List (Cell m n)) (truth t : Table m n) (h : AgreeAt fixed t truth) :
    target w t = (∏ c ∈ fixed.toFinset, Real.exp (w c.1 c.2) ^ (truth c.1 c.2).toNat / ((truth c.1 c.2).toNat.factorial : ℝ)) *
      ∏ c ∈ (freeCells fixed).toFinset, Real.exp (w c.1 c.2) ^ (t c.1 c.2).toNat / ((t c.1 c.2).toNat.factorial : ℝ) := by
  have hc : (freeCells fixed).toFinset = fixed.toFinsetᶜ := by
    ext c
    simp [mem_freeCells]
  rw [hc, target, prod_cells fun c => Real.exp (w c.1 c.2) ^ (t c.1 c.2).toNat / ((t c.1 c.2).toNat.factorial : ℝ),
    ← Finset.prod_mul_prod_compl fixed.toFinset]
  congr 1
  refine Finset.prod_congr rfl fun c hc => ?_
  rw [h c.1 c.2 (by simpa using hc)]

/-- **C97.** Only the total constrained, any fixed cells: every non-negative table with that total and the fixed values is produced by exactly
one vector of multinomial counts, whose probability is the target law of the table on the set of such tables. -/
theorem C97_multinomial_law {m n : Nat} (truth : Table m n) (fixed : List (Cell m n)) (tot : Int) (w : Fin m → Fin n → ℝ)
    (F : Finset (Table m n)) (hF : ∀ t, t ∈ F ↔ Nonneg t ∧ total t = tot ∧ AgreeAt fixed t truth) (t : Table m n) (ht : t ∈ F) :
    ∃ d : List Int, (∀ d', d'.length = (freeCells fixed).length → (sampleFreeCells truth fixed d' = some t ↔ d' = d)) ∧
      multinomialPmf (tot - fixedTotal truth fixed).toNat (multinomialProbs w fixed) d = target w t / ∑ t' ∈ F, target w t' := by
  obtain ⟨hnn, htot, hag⟩ := (hF t).1 ht
  refine ⟨(freeCells fixed).map fun c => t c.1 c.2, ?_, ?_⟩
  · intro d' hl
    obtain ⟨t', h1, h2, h3⟩ := sampleFreeCells_spec truth fixed d' hl.symm
    rw [h1, ← h3]
    constructor
    · intro h
      obtain rfl := Option.some.inj h
      rfl
    · intro h
      congr 1
      funext i j
      by_cases hij : (i, j) ∈ fixed
      · rw [h2 i j hij, hag i j hij]
      · exact List.map_inj_left.1 h (i, j) ((mem_freeCells fixed (i, j)).2 hij)
  · set N := (tot - fixedTotal truth fixed).toNat with hN
    have hsplit := total_split truth t fixed hag
    have hnnf : ∀ c ∈ freeCells fixed, 0 ≤ t c.1 c.2 := fun c _ => hnn _ _
    have hsum : ((freeCells fixed).map fun c => t c.1 c.2).sum = (N : Int) := by
      have : 0 ≤ ((freeCells fixed).map fun c => t c.1 c.2).sum := List.sum_nonneg (by
        intro x hx; obtain ⟨c, hc, rfl⟩ := List.mem_map.1 hx; exact hnnf c hc)
      omega
    set Z := ∑ i, ∑ j, Real.exp (w i j) with hZ
    set K := ∏ c ∈ fixed.toFinset, Real.exp (w c.1 c.2) ^ (truth c.1 c.2).toNat / ((truth c.1 c.2).toNat.factorial : ℝ) with hK
    set T := ∑ c ∈ (freeCells fixed).toFinset, Real.exp (w c.1 c.2) with hTd
    -- the sum of the target over the tables
    have hFsum : ∑ t' ∈ F, target w t' = K * (T ^ N / (N.factorial : ℝ)) := by
      rw [← multinomial_sum (freeCells fixed).toFinset (fun c => Real.exp (w c.1 c.2)) N, Finset.mul_sum]
      refine Finset.sum_bij' (fun t' _ => fun c => if c ∈ fixed then 0 else (t' c.1 c.2).toNat)
        (fun k _ => fun i j => if (i, j) ∈ fixed then truth i j else (k (i, j) : Int)) ?_ ?_ ?_ ?_ ?_
      · intro t' ht'
        obtain ⟨hnn', htot', hag'⟩ := (hF t').1 ht'
        rw [Finset.mem_piAntidiag]
        refine ⟨?_, ?_⟩
        · have hs' := total_split truth t' fixed hag'
          have e1 : ∑ c ∈ (freeCells fixed).toFinset, (if c ∈ fixed then 0 else (t' c.1 c.2).toNat) =
              ∑ c ∈ (freeCells fixed).toFinset, (t' c.1 c.2).toNat :=
            Finset.sum_congr rfl fun c hc => if_neg ((mem_freeCells fixed c).1 (List.mem_toFinset.1 hc))
          have e2 : ((∑ c ∈ (freeCells fixed).toFinset, (t' c.1 c.2).toNat : Nat) : Int) =
              ((freeCells fixed).map fun c => t' c.1 c.2).sum := by
            rw [← List.sum_toFinset _ (freeCells_nodup fixed)]
            push_cast
            exact Finset.sum_congr rfl fun c _ => Int.toNat_of_nonneg (hnn' _ _)
          rw [e1]
          omega
        · intro c hc
          rw [List.mem_toFinset, mem_freeCells]
          intro hcf
          simp [hcf] at hc
      · intro k hk
        obtain ⟨hk1, hk2⟩ := Finset.mem_piAntidiag.1 hk
        have hag' : AgreeAt fixed (fun i j => if (i, j) ∈ fixed then truth i j else (k (i, j) : Int)) truth := by
          intro i j hij; simp [hij]
        refine (hF _).2 ⟨?_, ?_, hag'⟩
        · intro i j
          by_cases hij : (i, j) ∈ fixed
          · simp only [hij, if_true]; rw [← hag i j hij]; exact hnn i j
          · simp [hij]
        · rw [total_split truth _ fixed hag']
          have e : ((freeCells fixed).map fun c => if (c.1, c.2) ∈ fixed then truth c.1 c.2 else (k (c.1, c.2) : Int)).sum =
              ((∑ c ∈ (freeCells fixed).toFinset, k c : Nat) : Int) := by
            rw [← List.sum_toFinset _ (freeCells_nodup fixed)]
            push_cast
            exact Finset.sum_congr rfl fun c hc => if_neg ((mem_freeCells fixed c).1 (List.mem_toFinset.1 hc))
          rw [e, hk1]
          omega
      · intro t' ht'
        obtain ⟨hnn', htot', hag'⟩ := (hF t').1 ht'
        funext i j
        by_cases hij : (i, j) ∈ fixed
        · simp only [hij, if_true]; exact (hag' i j hij).symm
        · simp only [hij, if_false]; exact Int.toNat_of_nonneg (hnn' i j)
      · intro k hk
        obtain ⟨hk1, hk2⟩ := Finset.mem_piAntidiag.1 hk
        funext c
        by_cases hc : c ∈ fixed
        · simp only [hc, if_true]
          by_contra hne
          have := hk2 c (Ne.symm hne)
          rw [List.mem_toFinset, mem_freeCells] at this
          exact this hc
        · simp [hc]
      · intro t' ht'
        obtain ⟨hnn', htot', hag'⟩ := (hF t').1 ht'
        rw [target_split w fixed truth t' hag']
        congr 1
        refine Finset.prod_congr rfl fun c hc => ?_
        simp only [if_neg ((mem_freeCells fixed c).1 (List.mem_toFinset.1 hc))]
    have hZpos : 0 < Z ∨ freeCells fixed = [] := by
      by_cases h0 : freeCells fixed = []
      · exact Or.inr h0
      · left
        obtain ⟨c, hc⟩ := List.exists_mem_of_ne_nil _ h0
        rw [hZ]
        exact Finset.sum_pos (fun i _ => Finset.sum_pos (fun j _ => Real.exp_pos _) ⟨c.2, Finset.mem_univ _⟩) ⟨c.1, Finset.mem_univ _⟩
    have hprobs : multinomialProbs w fixed = (freeCells fixed).map fun c => Real.exp (w c.1 c.2) / (if 0 < Z then Z else 1) := by
      unfold multinomialProbs
      rw [← hZ]
      refine List.map_congr_left fun c hc => ?_
      have hZ' : 0 < Z := hZpos.resolve_right (List.ne_nil_of_mem hc)
      rw [Real.exp_sub, Real.exp_log hZ', if_pos hZ']
    have hpmf := multinomialPmf_cells (freeCells fixed) (freeCells_nodup fixed) (fun c => Real.exp (w c.1 c.2)) (if 0 < Z then Z else 1)
      (by split <;> simp_all) (fun c => Real.exp_pos _) N (fun c => t c.1 c.2) hnnf hsum
    have hFpos : 0 < ∑ t' ∈ F, target w t' := Finset.sum_pos (fun t' _ => target_pos w t') ⟨t, ht⟩
    rw [eq_div_iff hFpos.ne', hprobs, hFsum, target_split w fixed truth t hag, ← hpmf]
    ring

/-- **C97.** Row sums constrained, no fixed cell: every non-negative table with those row sums is produced by exactly one family of
counts, one multinomial vector per row, and the product of their probabilities is the target law of the table. -/
theorem C97_row_multinomials_law {m n : Nat} (truth : Table m n) (row : Fin m → Int) (w : Fin m → Fin n → ℝ)
    (F : Finset (Table m n)) (hF : ∀ t, t ∈ F ↔ Nonneg t ∧ ∀ i, rowSum t i = row i) (t : Table m n) (ht : t ∈ F) :
    ∃ blocks : Fin m → List Int,
      (∀ b : Fin m → List Int, (∀ i, (b i).length = n) → (∀ i, (b i).sum = row i) →
        (productMultinomialPass truth [] (List.ofFn b) = some t ↔ b = blocks)) ∧
      ∏ i, multinomialPmf (row i).toNat (rowProbs w i) (blocks i) = target w t / ∑ t' ∈ F, target w t' := by
  classical
  obtain ⟨hnn, hrow⟩ := (hF t).1 ht
  have hgroup : ∀ i : Fin m, groupCells (m := m) (n := n) [] true i.val = (List.finRange n).map fun j => (i, j) := by
    intro i
    rw [groupCells_rows]
    simp
  refine ⟨fun i => List.ofFn (t i), ?_, ?_⟩
  · intro b hl hs
    obtain ⟨t', h1, h2, _⟩ := C13_rows_partial truth row b hl hs
    rw [h1]
    constructor
    · intro h
      obtain rfl := Option.some.inj h
      funext i
      exact (h2 i).symm
    · intro h
      congr 1
      funext i
      have := h2 i
      rw [h] at this
      exact List.ofFn_injective this
  · have hrow0 : ∀ i, 0 ≤ row i := by
      intro i
      rw [← hrow i]
      exact Finset.sum_nonneg fun j _ => hnn i j
    -- one row
    have hpmf : ∀ i, multinomialPmf (row i).toNat (rowProbs w i) (List.ofFn (t i)) *
        ((∑ j, Real.exp (w i j)) ^ (row i).toNat / ((row i).toNat.factorial : ℝ)) =
        ∏ j, Real.exp (w i j) ^ (t i j).toNat / ((t i j).toNat.factorial : ℝ) := by
      intro i
      have hsum : ((List.finRange n).map (t i)).sum = ((row i).toNat : Int) := by
        rw [Int.toNat_of_nonneg (hrow0 i), ← hrow i, rowSum, Fin.sum_univ_def]
      set Z := ∑ j, Real.exp (w i j) with hZ
      have hz : 0 < (if 0 < Z then Z else 1) := by split <;> simp_all
      have := multinomialPmf_cells (List.finRange n) (List.nodup_finRange n) (fun j => Real.exp (w i j)) (if 0 < Z then Z else 1) hz
        (fun _ => Real.exp_pos _) (row i).toNat (t i) (fun j _ => hnn i j) hsum
      have huniv : (List.finRange n).toFinset = Finset.univ := by ext; simp
      rw [huniv] at this
      rw [← this, List.ofFn_eq_map]
      congr 2
      unfold rowProbs
      rw [hgroup, List.map_map]
      refine List.map_congr_left fun j _ => ?_
      have hZ' : 0 < Z := by
        rw [hZ]
        exact Finset.sum_pos (fun j _ => Real.exp_pos _) ⟨j, Finset.mem_univ _⟩
      simp only [Function.comp]
      rw [Real.exp_sub, ← hZ, Real.exp_log hZ', if_pos hZ']
    -- the sum over the tables
    have hFsum : ∑ t' ∈ F, target w t' = ∏ i, ((∑ j, Real.exp (w i j)) ^ (row i).toNat / ((row i).toNat.factorial : ℝ)) := by
      rw [Finset.prod_congr rfl fun i _ => (multinomial_sum Finset.univ (fun j => Real.exp (w i j)) (row i).toNat).symm, Finset.prod_univ_sum]
      refine Finset.sum_bij' (fun t' _ => fun i j => (t' i j).toNat) (fun k _ => fun i j => (k i j : Int)) ?_ ?_ ?_ ?_ ?_
      · intro t' ht'
        obtain ⟨hnn', hrow'⟩ := (hF t').1 ht'
        rw [Fintype.mem_piFinset]
        intro i
        rw [Finset.mem_piAntidiag]
        refine ⟨?_, fun j _ => Finset.mem_univ j⟩
        have e : ((∑ j, (t' i j).toNat : Nat) : Int) = row i := by
          rw [← hrow' i]
          push_cast
          exact Finset.sum_congr rfl fun j _ => Int.toNat_of_nonneg (hnn' i j)
        omega
      · intro k hk
        rw [Fintype.mem_piFinset] at hk
        refine (hF _).2 ⟨fun i j => by simp, fun i => ?_⟩
        have := (Finset.mem_piAntidiag.1 (hk i)).1
        have h0 := hrow0 i
        unfold rowSum
        rw [← Nat.cast_sum, this]
        omega
      · intro t' ht'
        obtain ⟨hnn', hrow'⟩ := (hF t').1 ht'
        funext i j
        exact Int.toNat_of_nonneg (hnn' i j)
      · intro k _
        funext i j
        simp
      · intro t' _
        rfl
    have hFpos : 0 < ∑ t' ∈ F, target w t' := Finset.sum_pos (fun t' _ => target_pos w t') ⟨t, ht⟩
    rw [eq_div_iff hFpos.ne', hFsum, ← Finset.prod_mul_distrib, Finset.prod_congr rfl fun i _ => hpmf i]
    rfl

/-- The probability `torch.distributions.poisson.Poisson(rate)` gives to a count. -/
noncomputable def poissonPmf (rate : ℝ) (k : Int) : ℝ := if 0 ≤ k then Real.exp (-rate) * rate ^ k.toNat / (k.toNat.factorial : ℝ) else 0

/-- **C97.** No margin constrained, no fixed cell: the probability of a table is the product of the Poisson probabilities with the
intensities as means, that is, the target up to the constant `exp(-Σ exp w)`. -/
theorem C97_poisson_law {m n : Nat} (truth : Table m n) (w : Fin m → Fin n → ℝ) (t : Table m n) (ht : Nonneg t) :
    sampleFreeCells truth [] ((freeCells []).map fun c => t c.1 c.2) = some t ∧
    ((freeCells (m := m) (n := n) []).map fun c => poissonPmf (Real.exp (w c.1 c.2)) (t c.1 c.2)).prod =
      target w t * Real.exp (-∑ i, ∑ j, Real.exp (w i j)) := by
  constructor
  · obtain ⟨t', h1, _, h3⟩ := sampleFreeCells_spec truth [] ((freeCells []).map fun c => t c.1 c.2) (by simp)
    rw [h1]
    congr 1
    funext i j
    exact List.map_inj_left.1 h3 (i, j) ((mem_freeCells [] (i, j)).2 (by simp))
  · have huniv : (freeCells (m := m) (n := n) []).toFinset = Finset.univ := by
      ext c; simp [mem_freeCells]
    rw [← List.prod_toFinset _ (freeCells_nodup _), huniv, target,
      prod_cells fun c => Real.exp (w c.1 c.2) ^ (t c.1 c.2).toNat / ((t c.1 c.2).toNat.factorial : ℝ)]
    have hs : ∑ i, ∑ j, Real.exp (w i j) = ∑ c : Cell m n, Real.exp (w c.1 c.2) :=
      (Fintype.sum_prod_type fun c : Cell m n => Real.exp (w c.1 c.2)).symm
    rw [hs, ← Finset.sum_neg_distrib, Real.exp_sum, ← Finset.prod_mul_distrib]
    refine Finset.prod_congr rfl fun c _ => ?_
    rw [poissonPmf, if_pos (ht _ _)]
    ring

/-- The law of the table returned by direct sampling when both margins are constrained (`ContingencyTable_MCMC.py:569-572`,
`contingency_table/__init__.py:929-980`), no fixed cell: the permutation `torch.randperm(N)` is uniform.  The intensities are not used. -/
noncomputable def centralProb {m n : Nat} (truth : Table m n) (row : Fin m → Int) (col : Fin n → Int) (N : Nat) (t : Table m n) : ℝ :=
  ((Finset.univ : Finset (Equiv.Perm (Fin N))).filter fun s =>
    monteCarlo truth [] row col ((List.finRange N).map fun k => ((s k).val : Int) + 1) = t).card / (N.factorial : ℝ)

/-- **C97.** With both margins constrained direct sampling ignores the intensities: all margins `1`, intensities whose target
gives the identity table probability `3/4`, direct sampling gives it `1/2`. -/
theorem C97_both_margins_false : ∃ (w : Fin 2 → Fin 2 → ℝ) (F : Finset (Table 2 2)),
    (F : Set (Table 2 2)) = Fibre (fun _ => 1) (fun _ => 1) [] (fun _ _ => 0) ∧ tabI ∈ F ∧
    target w tabI / ∑ t' ∈ F, target w t' = 3 / 4 ∧ centralProb (fun _ _ => 0) (fun _ => 1) (fun _ => 1) 2 tabI = 1 / 2 := by
  have hF : (({tabI, tabS} : Finset (Table 2 2)) : Set (Table 2 2)) = Fibre (fun _ => 1) (fun _ => 1) [] (fun _ _ => 0) := by
    rw [small_fibre]
    ext t
    constructor
    · rintro ⟨a, b, c, _⟩; exact ⟨a, b, c, by intro i j h; simp at h⟩
    · rintro ⟨a, b, c, _⟩; exact ⟨a, b, c, by intro i j h; simp at h⟩
  refine ⟨fun i j => if i = 0 ∧ j = 0 then Real.log 3 else 0, {tabI, tabS}, hF, by simp, ?_, ?_⟩
  · have hT1 : target (fun i j => if i = 0 ∧ j = 0 then Real.log 3 else 0) tabI = 3 := by
      unfold target tabI
      simp [Fin.prod_univ_two, Real.exp_log]
    have hT2 : target (fun i j => if i = 0 ∧ j = 0 then Real.log 3 else 0) tabS = 1 := by
      unfold target tabS
      simp [Fin.prod_univ_two]
    have hne : tabI ≠ tabS := by decide +kernel
    rw [Finset.sum_pair hne, hT1, hT2]
    norm_num
  · unfold centralProb
    have : ((Finset.univ : Finset (Equiv.Perm (Fin 2))).filter fun s =>
        monteCarlo (fun _ _ => 0) [] (fun _ => 1) (fun _ => 1) ((List.finRange 2).map fun k => ((s k).val : Int) + 1) = tabI).card = 1 := by
      decide +kernel
    rw [this]
    norm_num [Nat.factorial]

/-! ### Non-vacuity -/

/-- A 2×2 table with a fixed cell and total `3`: the hypotheses of the multinomial law can be met. -/
example : ∃ (F : Finset (Table 2 2)) (t : Table 2 2), (∀ t, t ∈ F ↔ Nonneg t ∧ total t = 3 ∧ AgreeAt [(0, 0)] t (fun _ _ => 1)) ∧ t ∈ F ∧
    t 1 1 = 2 := by
  have hfin : {t : Table 2 2 | Nonneg t ∧ total t = 3 ∧ AgreeAt [(0, 0)] t (fun _ _ => 1)}.Finite := by
    refine Set.Finite.subset (s := Set.pi Set.univ fun _ => Set.pi Set.univ fun _ => Set.Icc 0 3) ?_ ?_
    · exact Set.Finite.pi fun _ => Set.Finite.pi fun _ => Set.finite_Icc (0 : ℤ) 3
    · rintro t ⟨h1, h2, _⟩ i _ j _
      have p00 := h1 0 0; have p01 := h1 0 1; have p10 := h1 1 0; have p11 := h1 1 1
      simp only [total, Fin.sum_univ_two] at h2
      fin_cases i <;> fin_cases j <;> simp <;> omega
  refine ⟨hfin.toFinset, ![![1, 0], ![0, 2]], fun t => by simp, ?_, rfl⟩
  rw [Set.Finite.mem_toFinset]
  exact ⟨by unfold Nonneg; decide +kernel, by decide +kernel, by intro i j h; simp at h; obtain ⟨rfl, rfl⟩ := h; rfl⟩

/-- A loop that rejects half of the draws. -/
example : ∃ (S : Finset (Table 2 2)) (p : Table 2 2 → ℝ), (∀ x, 0 ≤ p x) ∧ ∑ x ∈ S, p x = 1 ∧
    (∃ x ∈ S, Meets [[1]] (fun _ => 1) (fun _ => 1) 2 [] (fun _ _ => 0) x ∧ 0 < p x) ∧
    (∃ x ∈ S, ¬ Meets [[1]] (fun _ => 1) (fun _ => 1) 2 [] (fun _ _ => 0) x ∧ 0 < p x) ∧
    Stores (m := 2) (n := 2) (updateMarginsFromTable tabI (fun _ => none)) (fun _ => 1) (fun _ => 1) 2 := by
  refine ⟨{tabI, fun _ _ => 0}, fun _ => 1 / 2, fun _ => by norm_num, ?_, ⟨tabI, by simp, ⟨?_, ?_, ?_, ?_⟩, by norm_num⟩,
    ⟨fun _ _ => 0, by simp, fun h => ?_, by norm_num⟩, ⟨by decide +kernel, by decide +kernel, by decide +kernel⟩⟩
  · rw [Finset.sum_pair (by decide +kernel)]; norm_num
  · intro _; decide +kernel
  · intro h; simp at h
  · intro h; simp at h
  · intro i j h; simp at h
  · have := h.rows (by simp) 0
    revert this
    decide +kernel

end GeNSIT
