import Verif.Analysis.Grid
import Mathlib.Data.List.Nodup
import Mathlib.Data.List.Range
import Mathlib.Algebra.BigOperators.Fin
import Mathlib.Algebra.Order.BigOperators.Ring.Finset

/-!
# Lemmas on the grid searches
-/

namespace GeNSIT

theorem mem_gridPoints {n m : Nat} {p : Nat × Nat} : p ∈ gridPoints n m ↔ p.1 < n ∧ p.2 < m := by
  unfold gridPoints
  constructor
  · intro h
    simp only [List.mem_flatMap, List.mem_map, List.mem_range] at h
    obtain ⟨i, hi, j, hj, rfl⟩ := h
    exact ⟨hi, hj⟩
  · rintro ⟨h1, h2⟩
    simp only [List.mem_flatMap, List.mem_map, List.mem_range]
    exact ⟨p.1, h1, p.2, h2, rfl⟩

theorem gridPoints_nodup (n m : Nat) : (gridPoints n m).Nodup := by
  unfold gridPoints
  rw [List.nodup_flatMap]
  refine ⟨fun i _ => ?_, ?_⟩
  · exact (List.nodup_range).map (fun a b h => by simpa using h)
  · refine (List.nodup_range (n := n)).imp fun {a b} hab => ?_
    simp only [Function.onFun, List.disjoint_left, List.mem_map, not_exists]
    rintro x ⟨j, _, rfl⟩ j' ⟨_, h⟩
    exact hab (by simpa using (congrArg Prod.fst h).symm)

theorem gridPoints_succ (n m : Nat) : gridPoints (n + 1) m = gridPoints n m ++ (List.range m).map fun j => (n, j) := by
  unfold gridPoints
  rw [List.range_succ]
  simp

theorem gridPoints_length (n m : Nat) : (gridPoints n m).length = n * m := by
  induction n with
  | zero => simp [gridPoints]
  | succ n ih => rw [gridPoints_succ]; simp [ih, Nat.succ_mul]

theorem gridPoints_get (n m k : Nat) (hk : k < n * m) : (gridPoints n m)[k]? = some (k / m, k % m) := by
  induction n with
  | zero => simp at hk
  | succ n ih =>
    rw [gridPoints_succ]
    by_cases h : k < n * m
    · rw [List.getElem?_append_left (by rw [gridPoints_length]; exact h)]
      exact ih h
    · rw [List.getElem?_append_right (by rw [gridPoints_length]; omega), gridPoints_length]
      have hm : 0 < m := by
        rcases Nat.eq_zero_or_pos m with rfl | h0
        · simp at hk
        · exact h0
      have h1 : k - n * m < m := by rw [Nat.succ_mul] at hk; omega
      rw [List.getElem?_map, List.getElem?_range h1]
      simp only [Option.map_some, Option.some.injEq, Prod.mk.injEq]
      have hk' : k = (k - n * m) + m * n := by rw [Nat.mul_comm m n]; omega
      constructor
      · rw [hk', Nat.add_mul_div_left _ _ hm, Nat.div_eq_of_lt h1]; simp
      · conv_rhs => rw [hk']
        rw [Nat.add_mul_mod_self_left, Nat.mod_eq_of_lt h1]

/-- What the loop stores. -/
theorem gridLoop_grid {shape : Nat × Nat} {predict : Nat × Nat → Option (List ℚ)} {w : List ℚ} {L : List (Nat × Nat)}
    (hL : L.Nodup) {s s' : GridState} (h : gridLoop shape predict w L s = some s') :
    (∀ p ∈ L, p.1 < shape.1 ∧ p.2 < shape.2) ∧ (∀ p ∈ L, s'.grid p = (predict p).map (r2Score w)) ∧
    ∀ p, p ∉ L → s'.grid p = s.grid p := by
  induction L generalizing s with
  | nil => simp only [gridLoop, Option.some.injEq] at h; subst h; simp
  | cons p r ih =>
    obtain ⟨hp, hr⟩ := List.nodup_cons.1 hL
    unfold gridLoop at h
    cases hs : gridStep shape predict w s p with
    | none => rw [hs] at h; simp at h
    | some s1 =>
      rw [hs] at h
      simp only at h
      obtain ⟨i1, i2, i3⟩ := ih hr h
      have hin : p.1 < shape.1 ∧ p.2 < shape.2 := by
        by_contra hc
        unfold gridStep at hs
        rw [if_neg hc] at hs
        simp at hs
      have hg : ∀ q, s1.grid q = if q = p then (predict p).map (r2Score w) else s.grid q := by
        intro q
        unfold gridStep at hs
        rw [if_pos hin] at hs
        cases hpp : predict p with
        | none => rw [hpp] at hs; simp only [Option.some.injEq] at hs; subst hs; simp
        | some x =>
          rw [hpp] at hs
          simp only at hs
          split at hs
          · simp only [Option.some.injEq] at hs; subst hs; simp
          · simp only [Option.some.injEq] at hs; subst hs; simp
      refine ⟨?_, ?_, ?_⟩
      · intro q hq
        rcases List.mem_cons.1 hq with rfl | hq
        · exact hin
        · exact i1 q hq
      · intro q hq
        rcases List.mem_cons.1 hq with rfl | hq
        · rw [i3 _ hp, hg, if_pos rfl]
        · exact i2 q hq
      · intro q hq
        rw [List.mem_cons, not_or] at hq
        rw [i3 q hq.2, hg, if_neg hq.1]

/-- What the loop keeps as the best prediction: that of the first largest score above the initial one. -/
theorem gridLoop_best {shape : Nat × Nat} {predict : Nat × Nat → Option (List ℚ)} {w : List ℚ} {L : List (Nat × Nat)}
    {s s' : GridState} (h : gridLoop shape predict w L s = some s') :
    s.best ≤ s'.best ∧ (∀ p ∈ L, ∀ x, predict p = some x → r2Score w x ≤ s'.best) ∧
    ((s'.best = s.best ∧ s'.pred = s.pred) ∨
      ∃ pre p post x, L = pre ++ p :: post ∧ predict p = some x ∧ s'.best = r2Score w x ∧ s'.pred = x ∧ s.best < r2Score w x ∧
        ∀ q ∈ pre, ∀ y, predict q = some y → r2Score w y < r2Score w x) := by
  induction L generalizing s with
  | nil => simp only [gridLoop, Option.some.injEq] at h; subst h; simp
  | cons p r ih =>
    unfold gridLoop at h
    cases hs : gridStep shape predict w s p with
    | none => rw [hs] at h; simp at h
    | some s1 =>
      rw [hs] at h
      simp only at h
      obtain ⟨i1, i2, i3⟩ := ih h
      unfold gridStep at hs
      split at hs
      · cases hpp : predict p with
        | none =>
          rw [hpp] at hs
          simp only [Option.some.injEq] at hs
          subst hs
          simp only at i1 i3
          refine ⟨i1, ?_, ?_⟩
          · intro q hq x hx
            rcases List.mem_cons.1 hq with rfl | hq
            · rw [hpp] at hx; simp at hx
            · exact i2 q hq x hx
          · rcases i3 with i3 | ⟨pre, q, post, x, e, hx, hb, hpd, hlt, hpre⟩
            · exact Or.inl i3
            · refine Or.inr ⟨p :: pre, q, post, x, by rw [e]; rfl, hx, hb, hpd, hlt, ?_⟩
              intro q' hq' y hy
              rcases List.mem_cons.1 hq' with rfl | hq'
              · rw [hpp] at hy; simp at hy
              · exact hpre q' hq' y hy
        | some z =>
          rw [hpp] at hs
          simp only at hs
          by_cases hlt0 : s.best < r2Score w z
          · rw [if_pos hlt0] at hs
            simp only [Option.some.injEq] at hs
            subst hs
            simp only at i1 i3
            refine ⟨le_of_lt (lt_of_lt_of_le hlt0 i1), ?_, ?_⟩
            · intro q hq x hx
              rcases List.mem_cons.1 hq with rfl | hq
              · rw [hpp] at hx; simp only [Option.some.injEq] at hx; subst hx; exact i1
              · exact i2 q hq x hx
            · rcases i3 with ⟨i3, i4⟩ | ⟨pre, q, post, x, e, hx, hb, hpd, hlt, hpre⟩
              · exact Or.inr ⟨[], p, r, z, rfl, hpp, i3, i4, hlt0, by simp⟩
              · refine Or.inr ⟨p :: pre, q, post, x, by rw [e]; rfl, hx, hb, hpd, lt_trans hlt0 hlt, ?_⟩
                intro q' hq' y hy
                rcases List.mem_cons.1 hq' with rfl | hq'
                · rw [hpp] at hy; simp only [Option.some.injEq] at hy; subst hy; exact hlt
                · exact hpre q' hq' y hy
          · rw [if_neg hlt0] at hs
            simp only [Option.some.injEq] at hs
            subst hs
            simp only at i1 i3
            refine ⟨i1, ?_, ?_⟩
            · intro q hq x hx
              rcases List.mem_cons.1 hq with rfl | hq
              · rw [hpp] at hx; simp only [Option.some.injEq] at hx; subst hx; exact le_trans (not_lt.1 hlt0) i1
              · exact i2 q hq x hx
            · rcases i3 with i3 | ⟨pre, q, post, x, e, hx, hb, hpd, hlt, hpre⟩
              · exact Or.inl i3
              · refine Or.inr ⟨p :: pre, q, post, x, by rw [e]; rfl, hx, hb, hpd, hlt, ?_⟩
                intro q' hq' y hy
                rcases List.mem_cons.1 hq' with rfl | hq'
                · rw [hpp] at hy; simp only [Option.some.injEq] at hy; subst hy; exact lt_of_le_of_lt (not_lt.1 hlt0) hlt
                · exact hpre q' hq' y hy
      · simp at hs

/-- The loop ends unless a write leaves the dataset. -/
theorem gridLoop_succeeds {shape : Nat × Nat} {predict : Nat × Nat → Option (List ℚ)} {w : List ℚ} {L : List (Nat × Nat)}
    (h : ∀ p ∈ L, p.1 < shape.1 ∧ p.2 < shape.2) (s : GridState) : ∃ s', gridLoop shape predict w L s = some s' := by
  induction L generalizing s with
  | nil => exact ⟨s, rfl⟩
  | cons p r ih =>
    unfold gridLoop
    obtain ⟨s1, hs⟩ : ∃ s1, gridStep shape predict w s p = some s1 := by
      unfold gridStep
      rw [if_pos (h p List.mem_cons_self)]
      cases predict p with
      | none => exact ⟨_, rfl⟩
      | some x => simp only; split <;> exact ⟨_, rfl⟩
    rw [hs]
    exact ih (fun q hq => h q (List.mem_cons_of_mem _ hq)) s1

/-- `argmaxFrom` on a list without missing values, relative to the entries before it. -/
theorem argmaxFrom_spec (l : List (Option ℚ)) (i bi : Nat) (b : ℚ) (pre : List (Option ℚ)) (hi : i = pre.length)
    (hpre : ∀ x ∈ pre, x ≠ none) (hb : pre[bi]? = some (some b)) (hmax : ∀ (k : Nat) y, pre[k]? = some (some y) → y ≤ b)
    (hfirst : ∀ k < bi, ∀ y, pre[k]? = some (some y) → y < b) :
    (none ∈ l → (pre ++ l)[argmaxFrom i bi b l]? = some none ∧ ∀ k < argmaxFrom i bi b l, (pre ++ l)[k]? ≠ some none) ∧
    (none ∉ l → ∃ x, (pre ++ l)[argmaxFrom i bi b l]? = some (some x) ∧ (∀ (k : Nat) y, (pre ++ l)[k]? = some (some y) → y ≤ x) ∧
      ∀ k < argmaxFrom i bi b l, ∀ y, (pre ++ l)[k]? = some (some y) → y < x) := by
  induction l generalizing i bi b pre with
  | nil =>
    refine ⟨by simp, fun _ => ⟨b, ?_, ?_, ?_⟩⟩
    · simpa [argmaxFrom] using hb
    · simpa using hmax
    · simpa [argmaxFrom] using hfirst
  | cons o r ih =>
    have e : pre ++ o :: r = (pre ++ [o]) ++ r := by simp
    cases o with
    | none =>
      simp only [argmaxFrom]
      refine ⟨fun _ => ⟨by rw [hi]; simp, ?_⟩, fun h => absurd List.mem_cons_self h⟩
      intro k hk
      rw [List.getElem?_append_left (by omega)]
      intro hc
      exact hpre _ (List.mem_of_getElem? hc) rfl
    | some x =>
      simp only [argmaxFrom, List.mem_cons, reduceCtorEq, false_or]
      by_cases hx : b < x
      · rw [if_pos hx]
        have := ih (i + 1) i x (pre ++ [some x]) (by simp [hi])
          (by intro y hy; rcases List.mem_append.1 hy with hy | hy
              · exact hpre y hy
              · simp at hy; subst hy; simp)
          (by rw [hi]; simp)
          (by
            intro k y hy
            by_cases hk : k < pre.length
            · rw [List.getElem?_append_left hk] at hy
              exact le_of_lt (lt_of_le_of_lt (hmax k y hy) hx)
            · rw [List.getElem?_append_right (by omega)] at hy
              have hk0 : k - pre.length = 0 := by
                by_contra hne
                rw [List.getElem?_eq_none (by simp; omega)] at hy
                simp at hy
              rw [hk0] at hy
              simp at hy
              exact le_of_eq hy.symm)
          (by
            intro k hk y hy
            rw [List.getElem?_append_left (by omega)] at hy
            exact lt_of_le_of_lt (hmax k y hy) hx)
        rw [e]
        exact this
      · rw [if_neg hx]
        have hbi : bi < pre.length := by
          by_contra hc
          rw [List.getElem?_eq_none (by omega)] at hb
          simp at hb
        have := ih (i + 1) bi b (pre ++ [some x]) (by simp [hi])
          (by intro y hy; rcases List.mem_append.1 hy with hy | hy
              · exact hpre y hy
              · simp at hy; subst hy; simp)
          (by rw [List.getElem?_append_left hbi]; exact hb)
          (by
            intro k y hy
            by_cases hk : k < pre.length
            · rw [List.getElem?_append_left hk] at hy
              exact hmax k y hy
            · rw [List.getElem?_append_right (by omega)] at hy
              have hk0 : k - pre.length = 0 := by
                by_contra hne
                rw [List.getElem?_eq_none (by simp; omega)] at hy
                simp at hy
              rw [hk0] at hy
              simp at hy
              rw [← hy]
              exact not_lt.1 hx)
          (by
            intro k hk y hy
            rw [List.getElem?_append_left (by omega)] at hy
            exact hfirst k hk y hy)
        rw [e]
        exact this

theorem npArgmax_spec {l : List (Option ℚ)} {k : Nat} (h : npArgmax l = some k) :
    (none ∈ l → l[k]? = some none ∧ ∀ i < k, l[i]? ≠ some none) ∧
    (none ∉ l → ∃ x, l[k]? = some (some x) ∧ (∀ (i : Nat) y, l[i]? = some (some y) → y ≤ x) ∧
      ∀ i < k, ∀ y, l[i]? = some (some y) → y < x) := by
  cases l with
  | nil => simp [npArgmax] at h
  | cons o r =>
    cases o with
    | none => simp only [npArgmax, Option.some.injEq] at h; subst h; simp
    | some x =>
      simp only [npArgmax, Option.some.injEq] at h
      subst h
      have := argmaxFrom_spec r 1 0 x [some x] rfl (by simp) rfl
        (by intro k y hy; cases k with
            | zero => simp at hy; exact le_of_eq hy.symm
            | succ k => simp at hy)
        (by intro k hk; omega)
      simpa using this

theorem npArgmax_lt {l : List (Option ℚ)} {k : Nat} (h : npArgmax l = some k) : k < l.length := by
  have hs := npArgmax_spec h
  by_cases hn : none ∈ l
  · obtain ⟨h1, _⟩ := hs.1 hn
    exact (List.getElem?_eq_some_iff.1 h1).1
  · obtain ⟨x, h1, _⟩ := hs.2 hn
    exact (List.getElem?_eq_some_iff.1 h1).1

theorem npArgmax_some {l : List (Option ℚ)} (h : l ≠ []) : ∃ k, npArgmax l = some k := by
  cases l with
  | nil => exact absurd rfl h
  | cons o r => cases o <;> simp [npArgmax]

end GeNSIT
