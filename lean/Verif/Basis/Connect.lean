import Verif.Basis.Props
import Mathlib.Algebra.Order.BigOperators.Group.Finset
import Mathlib.Algebra.Order.Group.Unbundled.Abs
import Mathlib.Algebra.Order.Group.Abs
import Mathlib.Algebra.Order.Ring.Int
import Mathlib.Tactic.Linarith

/-! # Connectivity of fibres: helper lemmas -/

set_option linter.unusedSimpArgs false

namespace GeNSIT

open Spec

/-- Generic connectivity: unit transfers between free points with the same key connect all non-negative
functions with equal key sums that agree outside the free points. -/
theorem connect_by_transfers {ι κ : Type} [Fintype ι] [DecidableEq ι] [DecidableEq κ] (key : ι → κ)
    (free : ι → Prop) (R : (ι → Int) → (ι → Int) → Prop)
    (hR : ∀ (A : ι → Int) (a b : ι), (∀ c, 0 ≤ A c) → a ≠ b → key a = key b → free a → free b → 1 ≤ A a →
      R A (fun c => A c + ((if c = b then 1 else 0) - (if c = a then 1 else 0))))
    (B : ι → Int) (hB : ∀ c, 0 ≤ B c) (N : Nat) :
    ∀ A : ι → Int, (∀ c, 0 ≤ A c) → (∀ c, ¬ free c → A c = B c) →
      (∀ k, ∑ c ∈ Finset.univ.filter (fun c => key c = k), A c =
        ∑ c ∈ Finset.univ.filter (fun c => key c = k), B c) →
      ∑ c, (A c - B c).natAbs ≤ N → Relation.ReflTransGen R A B := by
  induction N with
  | zero =>
    intro A _ _ _ hd
    have h0 : ∑ c, (A c - B c).natAbs = 0 := by omega
    rw [Finset.sum_eq_zero_iff] at h0
    have : A = B := by
      funext c; have := h0 c (Finset.mem_univ c); omega
    rw [this]
  | succ N ih =>
    intro A hA hf hk hd
    by_cases hAB : A = B
    · rw [hAB]
    · obtain ⟨c0, hc0⟩ := Function.ne_iff.mp hAB
      have hz : ∑ c ∈ Finset.univ.filter (fun c => key c = key c0), (A c - B c) = 0 := by
        rw [Finset.sum_sub_distrib, hk (key c0)]; omega
      obtain ⟨a, ha, hapos⟩ := Finset.exists_pos_of_sum_zero_of_exists_nonzero _ hz
        ⟨c0, by simp, by omega⟩
      have hz' : ∑ c ∈ Finset.univ.filter (fun c => key c = key c0), (B c - A c) = 0 := by
        rw [Finset.sum_sub_distrib, hk (key c0)]; omega
      obtain ⟨b, hb, hbpos⟩ := Finset.exists_pos_of_sum_zero_of_exists_nonzero _ hz'
        ⟨c0, by simp, by omega⟩
      simp only [Finset.mem_filter, Finset.mem_univ, true_and] at ha hb
      have hab : a ≠ b := by rintro rfl; omega
      have hfa : free a := by by_contra h; have := hf a h; omega
      have hfb : free b := by by_contra h; have := hf b h; omega
      have h1 : 1 ≤ A a := by have := hB a; omega
      refine Relation.ReflTransGen.head (hR A a b hA hab (ha.trans hb.symm) hfa hfb h1) ?_
      apply ih
      · intro c
        have := hA c
        by_cases h1 : c = b
        · have : c ≠ a := fun h => hab (h.symm.trans h1)
          simp [h1, hab.symm]; have := hA b; omega
        · by_cases h2 : c = a
          · subst h2; simp [h1]; omega
          · simp [h1, h2, this]
      · intro c hc
        have e1 : c ≠ a := fun h => hc (h ▸ hfa)
        have e2 : c ≠ b := fun h => hc (h ▸ hfb)
        simp [e1, e2, hf c hc]
      · intro k
        rw [← hk k, Finset.sum_add_distrib, Finset.sum_sub_distrib]
        have e : ∀ x, key x = key c0 → ∑ c ∈ Finset.univ.filter (fun c => key c = k), (if c = x then (1 : Int) else 0) =
            if key c0 = k then 1 else 0 := by
          intro x hx
          rw [Finset.sum_ite_eq']
          simp [hx]
        rw [e b hb, e a ha]; omega
      · have hlt : ∑ c, ((A c + ((if c = b then 1 else 0) - (if c = a then 1 else 0))) - B c).natAbs <
            ∑ c, (A c - B c).natAbs := by
          apply Finset.sum_lt_sum
          · intro c _
            by_cases h1 : c = b
            · subst h1; simp [hab.symm]; omega
            · by_cases h2 : c = a
              · subst h2; simp [h1]; omega
              · simp [h1, h2]
          · refine ⟨a, Finset.mem_univ a, ?_⟩
            simp [hab]; omega
        omega

/-- Effect of a rectangle transfer. -/
def rectShift {m n : Nat} (A : Table m n) (i i' : Fin m) (j j' : Fin n) : Table m n := fun x y =>
  A x y + ((if x = i' then 1 else 0) - (if x = i then 1 else 0)) *
    ((if y = j then 1 else 0) - (if y = j' then 1 else 0))

theorem abs_step {x d : Int} (hd : d = 1 ∨ d = -1) : |x + d| ≤ |x| + 1 := by
  rcases hd with rfl | rfl <;> rcases abs_cases x with h | h <;> (rw [h.1]; rw [abs_le]; omega)

/-- Unit moves on all rectangles connect all non-negative tables with equal margins. -/
theorem connect_by_rectangles {m n : Nat} (R : Table m n → Table m n → Prop)
    (hR : ∀ (A : Table m n) (i i' : Fin m) (j j' : Fin n), Nonneg A → i ≠ i' → j ≠ j' → 1 ≤ A i j → 1 ≤ A i' j' →
      R A (rectShift A i i' j j'))
    (B : Table m n) (hB : Nonneg B) (N : Nat) :
    ∀ A : Table m n, Nonneg A → (∀ i, rowSum A i = rowSum B i) → (∀ j, colSum A j = colSum B j) →
      ∑ i, ∑ j, |A i j - B i j| ≤ (N : Int) → Relation.ReflTransGen R A B := by
  induction N with
  | zero =>
    intro A _ _ _ hd
    have hnn : ∀ i ∈ Finset.univ, 0 ≤ ∑ j, |A i j - B i j| := fun i _ => Finset.sum_nonneg fun j _ => abs_nonneg _
    have h0 : ∑ i, ∑ j, |A i j - B i j| = 0 := le_antisymm (by simpa using hd) (Finset.sum_nonneg hnn)
    have : A = B := by
      funext i j
      have h1 := (Finset.sum_eq_zero_iff_of_nonneg hnn).mp h0 i (Finset.mem_univ i)
      have h2 := (Finset.sum_eq_zero_iff_of_nonneg (fun j _ => abs_nonneg _)).mp h1 j (Finset.mem_univ j)
      have := abs_eq_zero.mp h2; omega
    rw [this]
  | succ N ih =>
    intro A hA hrow hcol hd
    by_cases hAB : A = B
    · rw [hAB]
    · obtain ⟨i0, hi0⟩ := Function.ne_iff.mp hAB
      obtain ⟨j0, hj0⟩ := Function.ne_iff.mp hi0
      have hz : ∀ i, ∑ j, (A i j - B i j) = 0 := by
        intro i; rw [Finset.sum_sub_distrib]; have := hrow i; simp only [rowSum] at this; omega
      have hzc : ∀ j, ∑ i, (A i j - B i j) = 0 := by
        intro j; rw [Finset.sum_sub_distrib]; have := hcol j; simp only [colSum] at this; omega
      have hz' : ∀ i, ∑ j, (B i j - A i j) = 0 := by
        intro i; rw [Finset.sum_sub_distrib]; have := hrow i; simp only [rowSum] at this; omega
      obtain ⟨j, _, hj⟩ := Finset.exists_pos_of_sum_zero_of_exists_nonzero _ (hz i0)
        ⟨j0, Finset.mem_univ _, by omega⟩
      obtain ⟨j', _, hj'⟩ := Finset.exists_pos_of_sum_zero_of_exists_nonzero _ (hz' i0)
        ⟨j0, Finset.mem_univ _, by omega⟩
      obtain ⟨i', _, hi'⟩ := Finset.exists_pos_of_sum_zero_of_exists_nonzero _ (hzc j')
        ⟨i0, Finset.mem_univ _, by omega⟩
      have hjj : j ≠ j' := by rintro rfl; omega
      have hii : i0 ≠ i' := by rintro rfl; omega
      have hb1 := hB i0 j
      have hb2 := hB i' j'
      refine Relation.ReflTransGen.head (hR A i0 i' j j' hA hii hjj (by omega) (by omega)) ?_
      have hcell : ∀ x y, rectShift A i0 i' j j' x y - B x y = (A x y - B x y) +
          ((if x = i' then 1 else 0) - (if x = i0 then 1 else 0)) *
            ((if y = j then 1 else 0) - (if y = j' then 1 else 0)) := by
        intro x y; simp only [rectShift]; ring
      have hsum : ∀ (k : Nat) (x y : Fin k), ∑ z : Fin k, ((if z = x then (1 : Int) else 0) - (if z = y then 1 else 0)) = 0 := by
        intro k x y; rw [Finset.sum_sub_distrib]; simp
      apply ih
      · intro x y
        have h0 := hA x y
        simp only [rectShift]
        by_cases h1 : x = i' <;> by_cases h2 : x = i0 <;> by_cases h3 : y = j <;> by_cases h4 : y = j' <;>
          (try simp_all) <;> (try subst_vars) <;> omega
      · intro x
        rw [← hrow x]
        simp only [rowSum, rectShift]
        rw [Finset.sum_add_distrib, ← Finset.mul_sum, hsum]; simp
      · intro y
        rw [← hcol y]
        simp only [colSum, rectShift]
        rw [Finset.sum_add_distrib, ← Finset.sum_mul, hsum]; simp
      · have hle : ∑ x, ∑ y, |rectShift A i0 i' j j' x y - B x y| ≤
            ∑ x, ∑ y, (|A x y - B x y| + (((if x = i' ∧ y = j then 1 else 0) - (if x = i0 ∧ y = j then 1 else 0))
              - ((if x = i0 ∧ y = j' then 1 else 0) + (if x = i' ∧ y = j' then 1 else 0)))) := by
          apply Finset.sum_le_sum
          intro x _
          apply Finset.sum_le_sum
          intro y _
          rw [hcell]
          by_cases h1 : x = i'
          · have h2 : x ≠ i0 := fun h => hii (h.symm.trans h1)
            by_cases h3 : y = j
            · have h4 : y ≠ j' := fun h => hjj (h3.symm.trans h)
              simp only [h1, h2, h3, h4, hii.symm, hjj, if_true, if_false, and_self, and_false, false_and]
              have := abs_step (x := A i' j - B i' j) (Or.inl rfl)
              simpa using this
            · by_cases h4 : y = j'
              · subst h4; subst h1
                simp only [hii.symm, hjj.symm, if_true, if_false, and_self, and_false, false_and]
                rw [abs_of_pos hi', abs_of_nonneg (by omega)]; omega
              · simp [h3, h4]
          · by_cases h2 : x = i0
            · subst h2
              by_cases h3 : y = j
              · subst h3
                simp only [hii, hjj, if_true, if_false, and_self, and_false, false_and]
                rw [abs_of_pos hj, abs_of_nonneg (by omega)]; omega
              · by_cases h4 : y = j'
                · subst h4
                  simp only [hii, hjj.symm, if_true, if_false, and_self, and_false, false_and]
                  rw [abs_of_neg (show A x y - B x y < 0 by omega), abs_of_nonpos (by omega)]; omega
                · simp [h3, h4]
            · simp [h1, h2]
        have hone : ∀ (a : Fin m) (b : Fin n), ∑ x : Fin m, ∑ y : Fin n, (if x = a ∧ y = b then (1 : Int) else 0) = 1 := by
          intro a b
          rw [Finset.sum_eq_single a]
          · simp
          · intro c _ hc; simp [hc]
          · simp
        have heq : ∑ x, ∑ y, (|A x y - B x y| + (((if x = i' ∧ y = j then (1 : Int) else 0) - (if x = i0 ∧ y = j then 1 else 0))
              - ((if x = i0 ∧ y = j' then 1 else 0) + (if x = i' ∧ y = j' then 1 else 0)))) =
            (∑ x, ∑ y, |A x y - B x y|) - 2 := by
          simp only [Finset.sum_add_distrib, Finset.sum_sub_distrib, hone]; omega
        rw [heq] at hle
        push_cast at hd
        omega

end GeNSIT
