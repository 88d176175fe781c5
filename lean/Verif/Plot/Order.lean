import Verif.Plot.Model
import Mathlib.Data.List.Nodup
import Mathlib.Data.List.Perm.Basic
import Mathlib.Tactic.Linarith

/-!
# C142: what is drawn on top of what

`zorderOf tuples j` is the stacking position that the figure gives to record `j` (a larger position is drawn on top).
-/

namespace GeNSIT

/-- Tuple `a` comes strictly before `b`, the first component being the most significant (tuples of the same length). -/
def Spec.TupleLt : List ℚ → List ℚ → Prop
  | a :: as, b :: bs => a < b ∨ (a = b ∧ Spec.TupleLt as bs)
  | _, _ => False

open Spec

theorem tupleLe_total : ∀ a b : List ℚ, tupleLe a b = true ∨ tupleLe b a = true
  | [], _ => Or.inl (by simp [tupleLe])
  | _ :: _, [] => Or.inr (by simp [tupleLe])
  | a :: as, b :: bs => by
    simp only [tupleLe, Bool.or_eq_true, Bool.and_eq_true, decide_eq_true_eq]
    rcases lt_trichotomy a b with h | h | h
    · exact Or.inl (Or.inl h)
    · rcases tupleLe_total as bs with h' | h'
      · exact Or.inl (Or.inr ⟨h, h'⟩)
      · exact Or.inr (Or.inr ⟨h.symm, h'⟩)
    · exact Or.inr (Or.inl h)

theorem tupleLe_trans : ∀ a b c : List ℚ, tupleLe a b = true → tupleLe b c = true → tupleLe a c = true
  | [], _, _, _, _ => by simp [tupleLe]
  | _ :: _, [], _, h, _ => by simp [tupleLe] at h
  | _ :: _, _ :: _, [], _, h => by simp [tupleLe] at h
  | a :: as, b :: bs, c :: cs, h1, h2 => by
    simp only [tupleLe, Bool.or_eq_true, Bool.and_eq_true, decide_eq_true_eq] at h1 h2 ⊢
    rcases h1 with h1 | ⟨h1, h1'⟩ <;> rcases h2 with h2 | ⟨h2, h2'⟩
    · exact Or.inl (lt_trans h1 h2)
    · exact Or.inl (h2 ▸ h1)
    · exact Or.inl (h1 ▸ h2)
    · exact Or.inr ⟨h1.trans h2, tupleLe_trans as bs cs h1' h2'⟩

theorem tupleLe_iff : ∀ a b : List ℚ, a.length = b.length → (tupleLe a b = true ↔ TupleLt a b ∨ a = b)
  | [], [], _ => by simp [tupleLe, TupleLt]
  | [], _ :: _, h => by simp at h
  | _ :: _, [], h => by simp at h
  | a :: as, b :: bs, h => by
    have ih := tupleLe_iff as bs (by simpa using h)
    simp only [tupleLe, Bool.or_eq_true, Bool.and_eq_true, decide_eq_true_eq, TupleLt, List.cons.injEq, ih]
    constructor
    · rintro (h | ⟨h, h' | h'⟩)
      · exact Or.inl (Or.inl h)
      · exact Or.inl (Or.inr ⟨h, h'⟩)
      · exact Or.inr ⟨h, h'⟩
    · rintro ((h | ⟨h, h'⟩) | ⟨h, h'⟩)
      · exact Or.inl h
      · exact Or.inr ⟨h, Or.inl h'⟩
      · exact Or.inr ⟨h, Or.inr h'⟩

theorem tupleLt_irrefl : ∀ a : List ℚ, ¬ TupleLt a a
  | [] => by simp [TupleLt]
  | a :: as => by
    simp only [TupleLt, lt_irrefl, true_and, false_or]
    exact tupleLt_irrefl as

theorem tupleLt_asymm : ∀ a b : List ℚ, TupleLt a b → ¬ TupleLt b a
  | [], _, h => by simp [TupleLt] at h
  | _ :: _, [], h => by simp [TupleLt] at h
  | a :: as, b :: bs, h => by
    simp only [TupleLt] at h ⊢
    rintro (h2 | ⟨h2, h2'⟩)
    · rcases h with h | ⟨h, _⟩
      · exact absurd h (not_lt.mpr h2.le)
      · exact absurd h2 (by rw [h]; exact lt_irrefl b)
    · rcases h with h | ⟨_, h⟩
      · exact absurd h (by rw [h2]; exact lt_irrefl a)
      · exact tupleLt_asymm as bs h h2'

section sort
variable (le : ℕ → ℕ → Prop) [DecidableRel le]

/-- `i` is placed before `j`: it is smaller, or equal and earlier. -/
def Before (i j : ℕ) : Prop := le i j ∧ (le j i → i < j)

theorem before_insert (htot : ∀ i j, le i j ∨ le j i) (htr : ∀ i j k, le i j → le j k → le i k) (a : ℕ) (l : List ℕ)
    (ha : ∀ b ∈ l, a < b) (hl : l.Pairwise (Before le)) : (l.orderedInsert le a).Pairwise (Before le) := by
  induction l with
  | nil => simp
  | cons b rest ih =>
    have hp := List.pairwise_cons.mp hl
    simp only [List.orderedInsert]
    split
    · next h =>
      refine List.pairwise_cons.mpr ⟨?_, hl⟩
      intro c hc
      have hac : a < c := ha c hc
      rcases List.mem_cons.mp hc with rfl | hc
      · exact ⟨h, fun _ => hac⟩
      · exact ⟨htr _ _ _ h (hp.1 c hc).1, fun _ => hac⟩
    · next h =>
      refine List.pairwise_cons.mpr ⟨?_, ih (fun c hc => ha c (List.mem_cons_of_mem _ hc)) hp.2⟩
      intro c hc
      rcases (List.mem_orderedInsert le).mp hc with rfl | hc
      · exact ⟨(htot c b).resolve_left h, fun h' => absurd h' h⟩
      · exact hp.1 c hc

theorem before_sort (htot : ∀ i j, le i j ∨ le j i) (htr : ∀ i j k, le i j → le j k → le i k) (l : List ℕ)
    (hl : l.Pairwise (· < ·)) : (l.insertionSort le).Pairwise (Before le) := by
  induction l with
  | nil => simp
  | cons a rest ih =>
    have hp := List.pairwise_cons.mp hl
    simp only [List.insertionSort_cons]
    refine before_insert le htot htr a _ ?_ (ih hp.2)
    intro b hb
    exact hp.1 b ((List.mem_insertionSort le).mp hb)

end sort

theorem idxOf_lt_of_pairwise {R : ℕ → ℕ → Prop} (hR : ∀ i j, R i j → ¬ R j i) (l : List ℕ) (hl : l.Pairwise R)
    {i j : ℕ} (hi : i ∈ l) (hj : j ∈ l) (hij : R i j) : l.idxOf i < l.idxOf j := by
  induction l with
  | nil => simp at hi
  | cons a rest ih =>
    have hp := List.pairwise_cons.mp hl
    have hne : i ≠ j := by rintro rfl; exact hR i i hij hij
    rcases List.mem_cons.mp hi with rfl | hi'
    · rw [List.idxOf_cons_self, List.idxOf_cons_ne _ hne]; omega
    · rcases List.mem_cons.mp hj with rfl | hj'
      · exact absurd hij (hR _ _ (hp.1 i hi'))
      · by_cases hai : a = i
        · subst hai
          rw [List.idxOf_cons_self, List.idxOf_cons_ne _ hne]; omega
        · by_cases haj : a = j
          · subst haj
            exact absurd hij (hR _ _ (hp.1 i hi'))
          · rw [List.idxOf_cons_ne _ hai, List.idxOf_cons_ne _ haj]
            exact Nat.succ_lt_succ (ih hp.2 hi' hj')

theorem lexsort_perm (tuples : List (List ℚ)) : (lexsort tuples).Perm (List.range tuples.length) :=
  List.perm_insertionSort _ _

theorem lexsort_before (tuples : List (List ℚ)) :
    (lexsort tuples).Pairwise
      (Before fun (i j : ℕ) => tupleLe (tuples.getD i []).reverse (tuples.getD j []).reverse = true) := by
  refine before_sort _ ?_ ?_ _ List.pairwise_lt_range
  · intro i j; exact tupleLe_total _ _
  · intro i j k; exact tupleLe_trans _ _ _

/-! ## C142 -/

/-- The stacking positions of `n` records are `1, …, n`, each once. -/
theorem C142_permutation (tuples : List (List ℚ)) :
    ((List.range tuples.length).map (zorderOf tuples)).Perm ((List.range tuples.length).map (· + 1)) := by
  have hnd : (lexsort tuples).Nodup := (lexsort_perm tuples).nodup_iff.mpr List.nodup_range
  have hlen : (lexsort tuples).length = tuples.length := by simpa using (lexsort_perm tuples).length_eq
  have hidx : ∀ i ∈ List.range tuples.length, (lexsort tuples).idxOf i < tuples.length := by
    intro i hi
    have := List.idxOf_lt_length_iff.mpr ((lexsort_perm tuples).mem_iff.mpr hi)
    omega
  have hinj : ∀ i ∈ List.range tuples.length, ∀ j ∈ List.range tuples.length,
      zorderOf tuples i = zorderOf tuples j → i = j := by
    intro i hi j hj h
    have h1 := hidx i hi
    have h2 := hidx j hj
    have h3 : (lexsort tuples).idxOf i = (lexsort tuples).idxOf j := by simp only [zorderOf] at h; omega
    exact (List.idxOf_inj ((lexsort_perm tuples).mem_iff.mpr hi)).mp h3
  have hn1 : ((List.range tuples.length).map (zorderOf tuples)).Nodup := List.Nodup.map_on (fun i hi j hj h => hinj i hi j hj h) List.nodup_range
  have hn2 : ((List.range tuples.length).map (· + 1)).Nodup := List.Nodup.map (fun a b h => by simpa using h) List.nodup_range
  refine (List.subperm_of_subset hn1 ?_).perm_of_length_le (by simp)
  intro z hz
  obtain ⟨i, hi, rfl⟩ := List.mem_map.mp hz
  have h1 := hidx i hi
  refine List.mem_map.mpr ⟨zorderOf tuples i - 1, ?_, ?_⟩
  · rw [List.mem_range]; simp only [zorderOf]; omega
  · simp only [zorderOf]; omega

/-- Record `i` is drawn above record `j` exactly when its ordering tuple is smaller, compared from the *last* ordering
variable, or equal and `i` comes first. -/
theorem C142_above_iff (tuples : List (List ℚ)) (d : ℕ) (hd : ∀ t ∈ tuples, t.length = d) (i j : ℕ) (ti tj : List ℚ)
    (hi : tuples[i]? = some ti) (hj : tuples[j]? = some tj) :
    zorderOf tuples j < zorderOf tuples i ↔ TupleLt ti.reverse tj.reverse ∨ (ti = tj ∧ i < j) := by
  have hil : i < tuples.length := (List.getElem?_eq_some_iff.mp hi).1
  have hjl : j < tuples.length := (List.getElem?_eq_some_iff.mp hj).1
  have hti : tuples.getD i [] = ti := by simp [List.getD, hi]
  have htj : tuples.getD j [] = tj := by simp [List.getD, hj]
  have hlen : ti.reverse.length = tj.reverse.length := by
    simp [hd ti (List.mem_of_getElem? hi), hd tj (List.mem_of_getElem? hj)]
  set R := Before fun (i j : ℕ) => tupleLe (tuples.getD i []).reverse (tuples.getD j []).reverse = true with hRdef
  have hR : ∀ i j, R i j → ¬ R j i := by
    rintro a b ⟨h1, h2⟩ ⟨h3, h4⟩
    have := h2 h3; have := h4 h1; omega
  have hmi : i ∈ lexsort tuples := (lexsort_perm tuples).mem_iff.mpr (List.mem_range.mpr hil)
  have hmj : j ∈ lexsort tuples := (lexsort_perm tuples).mem_iff.mpr (List.mem_range.mpr hjl)
  have hllen : (lexsort tuples).length = tuples.length := by simpa using (lexsort_perm tuples).length_eq
  have hbi := List.idxOf_lt_length_iff.mpr hmi
  have hbj := List.idxOf_lt_length_iff.mpr hmj
  have hz : zorderOf tuples j < zorderOf tuples i ↔ (lexsort tuples).idxOf i < (lexsort tuples).idxOf j := by
    simp only [zorderOf]; omega
  have hiff : R i j ↔ TupleLt ti.reverse tj.reverse ∨ (ti = tj ∧ i < j) := by
    rw [hRdef]
    simp only [Before, hti, htj]
    rw [tupleLe_iff _ _ hlen, tupleLe_iff _ _ hlen.symm]
    constructor
    · rintro ⟨h1 | h1, h2⟩
      · exact Or.inl h1
      · have : ti = tj := by simpa using h1
        exact Or.inr ⟨this, h2 (Or.inr h1.symm)⟩
    · rintro (h | ⟨rfl, h⟩)
      · refine ⟨Or.inl h, ?_⟩
        rintro (h' | h')
        · exact absurd h' (tupleLt_asymm _ _ h)
        · rw [h'] at h; exact absurd h (tupleLt_irrefl _)
      · exact ⟨Or.inr rfl, fun _ => h⟩
  rw [hz, ← hiff]
  constructor
  · intro h
    by_contra hn
    rcases Nat.lt_trichotomy i j with hlt | heq | hgt
    · have hle := tupleLe_total (tuples.getD i []).reverse (tuples.getD j []).reverse
      rcases hle with h1 | h1
      · exact hn ⟨h1, fun _ => hlt⟩
      · by_cases h2 : tupleLe (tuples.getD i []).reverse (tuples.getD j []).reverse = true
        · exact hn ⟨h2, fun _ => hlt⟩
        · have := idxOf_lt_of_pairwise hR _ (lexsort_before tuples) hmj hmi ⟨h1, fun h' => absurd h' h2⟩
          omega
    · subst heq; omega
    · have hle := tupleLe_total (tuples.getD j []).reverse (tuples.getD i []).reverse
      rcases hle with h1 | h1
      · have := idxOf_lt_of_pairwise hR _ (lexsort_before tuples) hmj hmi ⟨h1, fun _ => hgt⟩
        omega
      · by_cases h2 : tupleLe (tuples.getD j []).reverse (tuples.getD i []).reverse = true
        · have := idxOf_lt_of_pairwise hR _ (lexsort_before tuples) hmj hmi ⟨h2, fun _ => hgt⟩
          omega
        · exact hn ⟨h1, fun h' => absurd h' h2⟩
  · intro h
    exact idxOf_lt_of_pairwise hR _ (lexsort_before tuples) hmi hmj h

/-- With one ordering variable: in `desc` order smaller values are on top, in `asc` order larger values are; among equal
values the earlier record is on top. -/
theorem C142_one_variable (asc : Bool) (vals : List ℚ) (i j : ℕ) (x y : ℚ) (hi : vals[i]? = some x) (hj : vals[j]? = some y) :
    zorderOf (vals.map fun (v : ℚ) => orderTuple [asc] [v]) j < zorderOf (vals.map fun (v : ℚ) => orderTuple [asc] [v]) i ↔
      (if asc then y < x else x < y) ∨ (x = y ∧ i < j) := by
  rw [C142_above_iff _ 1 (by
    intro t ht
    obtain ⟨v, _, rfl⟩ := List.mem_map.mp ht
    simp [orderTuple]) i j (orderTuple [asc] [x]) (orderTuple [asc] [y]) (by simp [hi]) (by simp [hj])]
  cases asc <;> simp [orderTuple, orderValue, TupleLt]

/-- The documented direction ("if ascending order is set, smaller values go on top") is the opposite of what happens, for
every list of values. -/
theorem C142_direction_false (vals : List ℚ) (i j : ℕ) (x y : ℚ) (hi : vals[i]? = some x) (hj : vals[j]? = some y) (h : x < y) :
    zorderOf (vals.map fun (v : ℚ) => orderTuple [true] [v]) i < zorderOf (vals.map fun (v : ℚ) => orderTuple [true] [v]) j := by
  rw [C142_one_variable true vals j i y x hj hi]
  exact Or.inl (by simpa using h)

/-- With two ordering variables the second decides, and the first only breaks ties. -/
theorem C142_last_variable_first (a1 a2 : Bool) (vals : List (ℚ × ℚ)) (i j : ℕ) (x y : ℚ × ℚ) (hi : vals[i]? = some x)
    (hj : vals[j]? = some y) :
    zorderOf (vals.map fun (v : ℚ × ℚ) => orderTuple [a1, a2] [v.1, v.2]) j <
        zorderOf (vals.map fun (v : ℚ × ℚ) => orderTuple [a1, a2] [v.1, v.2]) i ↔
      orderValue a2 x.2 < orderValue a2 y.2 ∨
        (x.2 = y.2 ∧ (orderValue a1 x.1 < orderValue a1 y.1 ∨ (x.1 = y.1 ∧ i < j))) := by
  have hinj : ∀ (a : Bool) (u v : ℚ), orderValue a u = orderValue a v ↔ u = v := by
    intro a u v; cases a <;> simp [orderValue]
  rw [C142_above_iff _ 2 (by
    intro t ht
    obtain ⟨v, _, rfl⟩ := List.mem_map.mp ht
    simp [orderTuple]) i j (orderTuple [a1, a2] [x.1, x.2]) (orderTuple [a1, a2] [y.1, y.2]) (by simp [hi]) (by simp [hj])]
  simp only [orderTuple, List.zipWith_cons_cons, List.zipWith_nil_right, List.reverse_cons, List.reverse_nil,
    List.nil_append, List.cons_append, TupleLt, and_false, or_false, List.cons.injEq, and_true, hinj]
  constructor
  · rintro ((h | ⟨h, h'⟩) | ⟨⟨h, h'⟩, h''⟩)
    · exact Or.inl h
    · exact Or.inr ⟨h, Or.inl h'⟩
    · exact Or.inr ⟨h', Or.inr ⟨h, h''⟩⟩
  · rintro (h | ⟨h, h' | ⟨h', h''⟩⟩)
    · exact Or.inl (Or.inl h)
    · exact Or.inl (Or.inr ⟨h, h'⟩)
    · exact Or.inr ⟨⟨h', h⟩, h''⟩

/-- Ordering by a first variable, then a second: the first is not the primary one. -/
theorem C142_primary_false :
    ∃ vals : List (ℚ × ℚ), vals = [(1, 2), (3, 1)] ∧
      zorderOf (vals.map fun (v : ℚ × ℚ) => orderTuple [false, false] [v.1, v.2]) 0 <
        zorderOf (vals.map fun (v : ℚ × ℚ) => orderTuple [false, false] [v.1, v.2]) 1 := by
  refine ⟨_, rfl, ?_⟩
  rw [C142_last_variable_first false false _ 1 0 (3, 1) (1, 2) rfl rfl]
  left; norm_num [orderValue]

example : (List.range 3).map (zorderOf ([5, 2, 9].map fun (v : ℚ) => orderTuple [true] [v])) = [2, 1, 3] := by
  decide +kernel
example : (List.range 3).map (zorderOf ([5, 2, 9].map fun (v : ℚ) => orderTuple [false] [v])) = [2, 3, 1] := by
  decide +kernel

end GeNSIT
