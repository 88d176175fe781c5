import Verif.Utils.Spec
import Mathlib.Data.List.Range
import Mathlib.Tactic.Ring
import Mathlib.Tactic.Linarith
import Mathlib.Tactic.Positivity
import Mathlib.Data.List.GetD

/-!
# Helper lemmas for the utilities
-/

set_option linter.unusedSimpArgs false
set_option linter.unusedVariables false

namespace GeNSIT

open Spec

/-! ## Text -/

theorem pySplit_ne_nil (sep : Char) (s : List Char) : pySplit sep s ≠ [] := by
  cases s with
  | nil => simp [pySplit]
  | cons c cs =>
    simp only [pySplit]
    split
    · simp
    · split <;> simp

theorem pySplit_noSep (sep : Char) (p : List Char) (hp : sep ∉ p) : pySplit sep p = [p] := by
  induction p with
  | nil => rfl
  | cons c cs ih =>
    simp only [List.mem_cons, not_or] at hp
    simp [pySplit, ih hp.2, Ne.symm hp.1]

theorem pySplit_append (sep : Char) (p q : List Char) (hp : sep ∉ p) : pySplit sep (p ++ sep :: q) = p :: pySplit sep q := by
  induction p with
  | nil => simp [pySplit]
  | cons c cs ih =>
    simp only [List.mem_cons, not_or] at hp
    simp [pySplit, ih hp.2, Ne.symm hp.1]

theorem pySplit_join (sep : Char) : ∀ (ps : List (List Char)), ps ≠ [] → (∀ p ∈ ps, sep ∉ p) → pySplit sep (pyJoin sep ps) = ps
  | [], h, _ => absurd rfl h
  | [p], _, hp => pySplit_noSep sep p (hp p (by simp))
  | p :: q :: ps, _, hp => by
    rw [pyJoin, pySplit_append sep p _ (hp p (by simp)), pySplit_join sep (q :: ps) (by simp) (fun r hr => hp r (by simp [hr]))]

theorem pySplit_length (sep : Char) (s : List Char) : (pySplit sep s).length = s.count sep + 1 := by
  induction s with
  | nil => rfl
  | cons c cs ih =>
    simp only [pySplit]
    split
    · rename_i h; subst h; simp [ih]
    · rename_i h
      rw [List.count_cons_of_ne h, ← ih]
      split
      · rename_i h'; exact absurd h' (pySplit_ne_nil sep cs)
      · rename_i h'; simp [h']

theorem digitChar_isDigit : ∀ d : Nat, d < 10 → (digitChar d).isDigit = true ∧ (digitChar d).toNat - 48 = d := by decide +kernel

theorem natOfDigits_append (cs : List Char) (c : Char) : natOfDigits (cs ++ [c]) = 10 * natOfDigits cs + (c.toNat - 48) := by
  simp [natOfDigits, List.foldl_append]

theorem showNat_digits (n : Nat) : showNat n ≠ [] ∧ (∀ c ∈ showNat n, c.isDigit = true) ∧ natOfDigits (showNat n) = n := by
  induction n using Nat.strongRecOn with
  | _ n ih =>
    rw [showNat]
    split
    · rename_i h
      have := digitChar_isDigit n h
      simp [natOfDigits, this]
    · rename_i h
      have hd := digitChar_isDigit (n % 10) (Nat.mod_lt _ (by norm_num))
      obtain ⟨h1, h2, h3⟩ := ih (n / 10) (by omega)
      refine ⟨by simp, ?_, ?_⟩
      · intro c hc
        rcases List.mem_append.mp hc with hc | hc
        · exact h2 c hc
        · simp only [List.mem_singleton] at hc; rw [hc]; exact hd.1
      · rw [natOfDigits_append, h3, hd.2]; omega

theorem pyNat_showNat (n : Nat) : pyNat (showNat n) = some n := by
  obtain ⟨h1, h2, h3⟩ := showNat_digits n
  have ha : (showNat n).all Char.isDigit = true := by simpa [List.all_eq_true] using h2
  simp [pyNat, h1, ha, h3]

theorem pyInt_showInt (z : Int) : pyInt (showInt z) = some z := by
  obtain ⟨h1, h2, h3⟩ := showNat_digits z.natAbs
  unfold showInt
  split
  · rename_i h
    simp only [pyInt, pyNat_showNat, Option.map_some]
    congr 1
    omega
  · rename_i h
    cases hs : showNat z.natAbs with
    | nil => exact absurd hs h1
    | cons c cs =>
      have hc : c.isDigit = true := h2 c (by simp [hs])
      have hm : c ≠ '-' := by intro h; subst h; exact absurd hc (by decide)
      have hp : c ≠ '+' := by intro h; subst h; exact absurd hc (by decide)
      have : pyInt (c :: cs) = (pyNat (c :: cs)).map fun n : Nat => (n : Int) := by
        unfold pyInt
        split
        · rename_i h; simp at h; exact absurd h.1 hm
        · rename_i h; simp at h; exact absurd h.1 hp
        · rfl
      rw [this, ← hs, pyNat_showNat, Option.map_some]
      congr 1
      omega

theorem showInt_chars (z : Int) (c : Char) (hc : c ∈ showInt z) : c = '-' ∨ c.isDigit = true := by
  unfold showInt at hc
  split at hc
  · rcases List.mem_cons.mp hc with h | h
    · exact Or.inl h
    · exact Or.inr ((showNat_digits _).2.1 c h)
  · exact Or.inr ((showNat_digits _).2.1 c hc)

theorem showInt_not (z : Int) (c : Char) (h1 : c ≠ '-') (h2 : c.isDigit = false) : c ∉ showInt z := by
  intro h
  rcases showInt_chars z c h with h | h
  · exact h1 h
  · simp [h2] at h

theorem mapM_map_some {α β : Type} (f : α → β) (g : β → Option α) (h : ∀ a, g (f a) = some a) (l : List α) :
    (l.map f).mapM g = some l := by
  induction l with
  | nil => rfl
  | cons a l ih => simp [List.mapM_cons, h, ih]

theorem mapM_length {α β : Type} (g : α → Option β) : ∀ (l : List α) (r : List β), l.mapM g = some r → r.length = l.length
  | [], r, h => by simp at h; simp [h]
  | a :: l, r, h => by
    rw [List.mapM_cons] at h
    cases hg : g a with
    | none => simp [hg] at h
    | some b =>
      cases hl : l.mapM g with
      | none => simp [hg, hl] at h
      | some bs =>
        simp [hg, hl] at h
        rw [← h]; simp [mapM_length g l bs hl]

/-! ## float32 -/

theorem f32OfNat_small (n : Nat) (h : n ≤ 2 ^ 24) : f32OfNat n = n := by
  rcases Nat.lt_or_ge n (2 ^ 24) with h' | h'
  · have hl : Nat.log2 n - 23 = 0 := by
      have : n = 0 ∨ Nat.log2 n < 24 := by
        rcases Nat.eq_zero_or_pos n with h0 | h0
        · exact Or.inl h0
        · exact Or.inr ((Nat.log2_lt (by omega)).mpr h')
      rcases this with rfl | h
      · rfl
      · omega
    simp only [f32OfNat, hl]
    simp [Nat.mod_one]
  · have : n = 2 ^ 24 := le_antisymm h h'
    subst this
    decide +kernel

theorem stringToNumeric_showInt (z : Int) (h1 : -2 ^ 24 ≤ z) (h2 : z ≤ 2 ^ 24) : stringToNumeric (showInt z) = some z := by
  have hn : f32OfNat z.natAbs = z.natAbs := f32OfNat_small _ (by omega)
  have hz : (if z < 0 then -(z.natAbs : Int) else (z.natAbs : Int)) = z := by split <;> omega
  simp only [stringToNumeric, pyInt_showInt, hn, hz]
  rw [if_pos]
  constructor
  · calc (-(2 ^ 31) : Int) ≤ -2 ^ 24 := by norm_num
      _ ≤ z := h1
  · calc z ≤ 2 ^ 24 := h2
      _ < 2 ^ 31 := by norm_num

/-! ## arange -/

theorem arange_pos (a stop s : Int) (hs : 0 < s) :
    ∃ xs, arange a stop s = some xs ∧ ListsIncreasing xs (fun x => a ≤ x ∧ x < stop ∧ s ∣ x - a) := by
  refine ⟨(List.range ((stop - a + s - 1) / s).toNat).map fun k : Nat => a + s * (k : Int),
    by simp only [arange, if_neg hs.ne', if_pos hs], ?_, ?_⟩
  · rw [List.pairwise_map]
    refine List.Pairwise.imp ?_ List.pairwise_lt_range
    intro i j hij
    have : (i : Int) < j := by exact_mod_cast hij
    have := mul_lt_mul_of_pos_left this hs
    linarith
  · intro x
    simp only [List.mem_map, List.mem_range]
    constructor
    · rintro ⟨k, hk, rfl⟩
      refine ⟨?_, ?_, ?_⟩
      · have : (0 : Int) ≤ s * k := by positivity
        linarith
      · have hk' : (k : Int) < (stop - a + s - 1) / s := by omega
        have h1 : ((k : Int) + 1) ≤ (stop - a + s - 1) / s := hk'
        have h2 := (Int.le_ediv_iff_mul_le hs).mp h1
        nlinarith
      · exact ⟨k, by ring⟩
    · rintro ⟨h1, h2, k, hk⟩
      have hk0 : 0 ≤ k := by
        by_contra h
        push Not at h
        have : s * k < 0 := mul_neg_of_pos_of_neg hs h
        omega
      refine ⟨k.toNat, ?_, ?_⟩
      · have : k + 1 ≤ (stop - a + s - 1) / s := by
          rw [Int.le_ediv_iff_mul_le hs]
          nlinarith
        omega
      · rw [Int.toNat_of_nonneg hk0]; omega

theorem arange_neg (a stop s : Int) (hs : s < 0) :
    ∃ xs, arange a stop s = some xs ∧ ListsDecreasing xs (fun x => x ≤ a ∧ stop < x ∧ s ∣ x - a) := by
  refine ⟨(List.range ((a - stop - s - 1) / -s).toNat).map fun k : Nat => a + s * (k : Int),
    by simp only [arange, if_neg hs.ne, if_neg (not_lt.mpr hs.le)], ?_, ?_⟩
  · rw [List.pairwise_map]
    refine List.Pairwise.imp ?_ List.pairwise_lt_range
    intro i j hij
    have : (i : Int) < j := by exact_mod_cast hij
    have := mul_lt_mul_of_neg_left this hs
    simp only [gt_iff_lt]
    linarith
  · intro x
    have hs' : 0 < -s := by omega
    simp only [List.mem_map, List.mem_range]
    constructor
    · rintro ⟨k, hk, rfl⟩
      refine ⟨?_, ?_, ?_⟩
      · have : s * k ≤ 0 := mul_nonpos_of_nonpos_of_nonneg hs.le (by positivity)
        linarith
      · have hk' : (k : Int) < (a - stop - s - 1) / (-s) := by omega
        have h1 : ((k : Int) + 1) ≤ (a - stop - s - 1) / (-s) := hk'
        have h2 := (Int.le_ediv_iff_mul_le hs').mp h1
        nlinarith
      · exact ⟨k, by ring⟩
    · rintro ⟨h1, h2, k, hk⟩
      have hk0 : 0 ≤ k := by
        by_contra h
        push Not at h
        have : 0 < s * k := mul_pos_of_neg_of_neg hs h
        omega
      refine ⟨k.toNat, ?_, ?_⟩
      · have : k + 1 ≤ (a - stop - s - 1) / (-s) := by
          rw [Int.le_ediv_iff_mul_le hs']
          nlinarith
        omega
      · rw [Int.toNat_of_nonneg hk0]; omega

/-! ## Chunks -/

theorem chunks_count (len n : Nat) (hn : 0 < n) (h : n < len) : (len + n - 1) / n = (len - n + n - 1) / n + 1 := by
  have : len + n - 1 = (len - n + n - 1) + n := by omega
  rw [this, Nat.add_div_right _ hn]

theorem divideChunks_cons {α : Type} (l : List α) (n : Nat) (hn : 0 < n) (hl : l ≠ []) :
    divideChunks l n = (divideChunks (l.drop n) n).map (l.take n :: ·) := by
  have hlen : 0 < l.length := List.length_pos_iff.mpr hl
  simp only [divideChunks, if_neg hn.ne', Option.map_some, Option.some.injEq]
  have hc : (l.length + n - 1) / n = ((l.drop n).length + n - 1) / n + 1 := by
    rw [List.length_drop]
    rcases Nat.lt_or_ge n l.length with h | h
    · exact chunks_count _ _ hn h
    · have h0 : l.length - n = 0 := by omega
      rw [h0]
      have h1 : (l.length + n - 1) / n = 1 := by
        apply Nat.div_eq_of_lt_le <;> omega
      have h2 : (0 + n - 1) / n = 0 := Nat.div_eq_of_lt (by omega)
      rw [h1, h2]
  rw [hc, List.range_succ_eq_map, List.map_cons, List.map_map]
  congr 1
  · simp
  · apply List.map_congr_left
    intro k _
    simp only [Function.comp_apply, List.drop_drop]
    congr 2
    rw [Nat.succ_mul]; omega

theorem divideChunks_nil {α : Type} (n : Nat) (hn : 0 < n) : divideChunks ([] : List α) n = some [] := by
  have : (0 + n - 1) / n = 0 := Nat.div_eq_of_lt (by omega)
  simp [divideChunks, hn.ne', hn, this]

/-- Rows of a rectangular array are recovered by chunking its flattening. -/
theorem divideChunks_flatten (rows : List (List Int)) (n : Nat) (hn : 0 < n) (hr : ∀ r ∈ rows, r.length = n) :
    divideChunks rows.flatten n = some rows := by
  induction rows with
  | nil => exact divideChunks_nil n hn
  | cons r rs ih =>
    have hrl : r.length = n := hr r (by simp)
    have hne : (r :: rs).flatten ≠ [] := by
      intro h
      have : r = [] := by simp at h; exact h.1
      subst this; simp at hrl; omega
    rw [divideChunks_cons _ n hn hne]
    simp only [List.flatten_cons]
    rw [List.drop_append_of_le_length (by omega), List.drop_of_length_le (by omega), List.nil_append,
      ih (fun r' h' => hr r' (by simp [h'])), List.take_append_of_le_length (by omega), List.take_of_length_le (by omega)]
    rfl

theorem length_flatten_rect (rows : List (List Int)) (n : Nat) (hr : ∀ r ∈ rows, r.length = n) :
    rows.flatten.length = rows.length * n := by
  induction rows with
  | nil => simp
  | cons r rs ih =>
    simp only [List.flatten_cons, List.length_append, List.length_cons, ih (fun r' h' => hr r' (by simp [h'])), hr r (by simp)]
    rw [Nat.succ_mul]; omega

/-- What chunking a list yields, in one place. -/
theorem divideChunks_spec {α : Type} (n : Nat) (hn : 0 < n) (N : Nat) : ∀ l : List α, l.length ≤ N →
    ∃ cs, divideChunks l n = some cs ∧ cs.flatten = l ∧ (∀ c ∈ cs, c ≠ [] ∧ c.length ≤ n) ∧
      (∀ k, k + 1 < cs.length → ∀ c, cs[k]? = some c → c.length = n) := by
  induction N with
  | zero =>
    intro l hl
    have : l = [] := List.length_eq_zero_iff.mp (by omega)
    subst this
    exact ⟨[], divideChunks_nil n hn, rfl, by simp, by simp⟩
  | succ N ih =>
    intro l hl
    by_cases hl0 : l = []
    · subst hl0
      exact ⟨[], divideChunks_nil n hn, rfl, by simp, by simp⟩
    · have hpos : 0 < l.length := List.length_pos_iff.mpr hl0
      obtain ⟨cs, h1, h2, h3, h4⟩ := ih (l.drop n) (by simp; omega)
      refine ⟨l.take n :: cs, by rw [divideChunks_cons l n hn hl0, h1]; rfl, by simp [h2], ?_, ?_⟩
      · intro c hc
        rcases List.mem_cons.mp hc with rfl | hc
        · refine ⟨?_, by simp⟩
          intro h
          have := congrArg List.length h
          simp only [List.length_take, List.length_nil] at this; omega
        · exact h3 c hc
      · intro k hk c hc
        cases k with
        | zero =>
          simp at hc hk
          subst hc
          simp only [List.length_take]
          have : l.drop n ≠ [] := by
            intro h
            rw [← h2] at h
            cases cs with
            | nil => simp at hk
            | cons c cs => simp at h; exact (h3 c (by simp)).1 h.1
          have := List.length_pos_iff.mpr this
          simp at this; omega
        | succ k =>
          simp only [List.getElem?_cons_succ, List.length_cons] at hc hk
          exact h4 k (by omega) c hc

/-! ## Dictionaries -/

theorem toInt32_fits (z : Int) (h : Fits32 z) : toInt32 z = z := by
  unfold toInt32 Fits32 at *
  rw [Int.emod_eq_of_lt] <;> omega

theorem mem_zipIdx_get {α : Type} (l : List α) (x : α) (i : Nat) : (x, i) ∈ l.zipIdx ↔ l[i]? = some x := by
  rw [List.mem_zipIdx_iff_getElem?]

theorem mem_arrayToF (rows : List (List Int)) (i j : Nat) (v : Int) :
    ((i, j), v) ∈ arrayToF rows ↔ ∃ r, rows[i]? = some r ∧ r[j]? = some v := by
  unfold arrayToF
  simp only [List.mem_flatten, List.mem_map]
  constructor
  · rintro ⟨l, ⟨⟨r, i'⟩, hr, rfl⟩, hx⟩
    simp only [List.mem_map] at hx
    obtain ⟨⟨x, j'⟩, hx, he⟩ := hx
    simp only [Prod.mk.injEq] at he
    obtain ⟨⟨rfl, rfl⟩, rfl⟩ := he
    exact ⟨r, (mem_zipIdx_get _ _ _).mp hr, (mem_zipIdx_get _ _ _).mp hx⟩
  · rintro ⟨r, hr, hv⟩
    refine ⟨_, ⟨(r, i), (mem_zipIdx_get _ _ _).mpr hr, rfl⟩, ?_⟩
    simp only [List.mem_map]
    exact ⟨(v, j), (mem_zipIdx_get _ _ _).mpr hv, rfl⟩

theorem foldl_max_ge_of (l : List Nat) : ∀ (a x : Nat), x ∈ l ∨ x ≤ a → x ≤ l.foldl max a := by
  induction l with
  | nil => intro a x h; simpa using h
  | cons b l ih =>
    intro a x h
    simp only [List.foldl_cons]
    apply ih
    rcases h with h | h
    · rcases List.mem_cons.mp h with rfl | h
      · exact Or.inr (le_max_right _ _)
      · exact Or.inl h
    · exact Or.inr (le_trans h (le_max_left _ _))

theorem foldl_max_le_of (l : List Nat) : ∀ (a b : Nat), a ≤ b → (∀ x ∈ l, x ≤ b) → l.foldl max a ≤ b := by
  induction l with
  | nil => intro a b h _; simpa using h
  | cons c l ih =>
    intro a b h hx
    simp only [List.foldl_cons]
    exact ih _ _ (max_le h (hx c (by simp))) (fun x hx' => hx x (by simp [hx']))

/-- Looking up a key in a dictionary with distinct keys. -/
theorem find_reverse {K : Type} [DecidableEq K] (f : List (K × Int)) (hnd : (f.map (·.1)).Nodup) (k : K) :
    (∀ v, (k, v) ∈ f → f.reverse.find? (fun kv => decide (kv.1 = k)) = some (k, v)) ∧
    ((∀ v, (k, v) ∉ f) → f.reverse.find? (fun kv => decide (kv.1 = k)) = none) := by
  constructor
  · intro v hv
    cases hf : f.reverse.find? (fun kv => decide (kv.1 = k)) with
    | none =>
      rw [List.find?_eq_none] at hf
      exact absurd (by simp) (hf (k, v) (by simpa using hv))
    | some kv =>
      have h1 := List.find?_some hf
      have h2 := List.mem_of_find?_eq_some hf
      simp only [decide_eq_true_eq] at h1
      simp only [List.mem_reverse] at h2
      obtain ⟨k', v'⟩ := kv
      simp only at h1
      subst h1
      congr 1
      by_contra hne
      exact hne (List.inj_on_of_nodup_map hnd h2 hv rfl)
  · intro h
    rw [List.find?_eq_none]
    rintro ⟨k', v'⟩ hm
    simp only [decide_eq_true_eq]
    rintro rfl
    exact h v' (by simpa using hm)

end GeNSIT
