import Verif.Cycle.Spec
import Verif.Basis.Lemmas
import Mathlib.Data.List.Nodup
import Mathlib.Data.List.Dedup
import Mathlib.Order.Basic

set_option linter.unusedSimpArgs false

namespace GeNSIT

open Spec

/-! ### canonical form -/

theorem foldl_min_spec {α : Type} [LinearOrder α] (l : List α) (a : α) :
    (l.foldl min a = a ∨ l.foldl min a ∈ l) ∧ l.foldl min a ≤ a ∧ ∀ x ∈ l, l.foldl min a ≤ x := by
  induction l generalizing a with
  | nil => simp
  | cons b l ih =>
    obtain ⟨h1, h2, h3⟩ := ih (min a b)
    simp only [List.foldl_cons, List.mem_cons]
    refine ⟨?_, le_trans h2 (min_le_left _ _), ?_⟩
    · rcases h1 with h1 | h1
      · rcases min_choice a b with h | h
        · left; rw [h1, h]
        · right; left; rw [h1, h]
      · exact Or.inr (Or.inr h1)
    · rintro x (rfl | hx)
      · exact le_trans h2 (min_le_right _ _)
      · exact h3 x hx

theorem minOf_spec {α : Type} [LinearOrder α] {l : List α} {mn : α} (h : minOf l = some mn) :
    mn ∈ l ∧ ∀ x ∈ l, mn ≤ x := by
  cases l with
  | nil => simp [minOf] at h
  | cons a l =>
    simp only [minOf, Option.some.injEq] at h
    subst h
    obtain ⟨h1, h2, h3⟩ := foldl_min_spec l a
    refine ⟨?_, ?_⟩
    · rcases h1 with h1 | h1
      · rw [h1]; simp
      · simp [h1]
    · simp only [List.mem_cons]
      rintro x (rfl | hx)
      · exact h2
      · exact h3 x hx

theorem minOf_perm {α : Type} [LinearOrder α] {l l' : List α} (h : ∀ x, x ∈ l ↔ x ∈ l') : minOf l = minOf l' := by
  cases e : minOf l with
  | none =>
    cases l with
    | nil =>
      cases l' with
      | nil => rfl
      | cons b _ => exact absurd ((h b).mpr (by simp)) (by simp)
    | cons _ _ => simp [minOf] at e
  | some a =>
    cases e' : minOf l' with
    | none =>
      cases l' with
      | nil => exact absurd ((h a).mp (minOf_spec e).1) (by simp)
      | cons _ _ => simp [minOf] at e'
    | some b =>
      obtain ⟨h1, h2⟩ := minOf_spec e
      obtain ⟨h3, h4⟩ := minOf_spec e'
      rw [le_antisymm (h2 b ((h b).mpr h3)) (h4 a ((h a).mp h1))]

/-- The list rotated to begin at `mn`. -/
def rotTo {α : Type} [DecidableEq α] (mn : α) (l : List α) : List α := l.rotate (l.idxOf mn)

theorem rotTo_isRotated {α : Type} [DecidableEq α] (mn : α) (l : List α) : l.IsRotated (rotTo mn l) := ⟨_, rfl⟩

theorem rotTo_head {α : Type} [DecidableEq α] {mn : α} {l : List α} (h : mn ∈ l) : (rotTo mn l)[0]? = some mn := by
  have hl := List.idxOf_lt_length_of_mem h
  unfold rotTo
  rw [List.getElem?_rotate (by omega)]
  simp only [zero_add]
  rw [Nat.mod_eq_of_lt hl, List.getElem?_eq_getElem hl, List.getElem_idxOf]

theorem rotated_head_unique {α : Type} {l l' : List α} (hn : l.Nodup) (hr : l.IsRotated l') {a : α}
    (h : l[0]? = some a) (h' : l'[0]? = some a) : l = l' := by
  obtain ⟨k, rfl⟩ := hr
  cases l with
  | nil => simp at h
  | cons b l =>
    rw [List.getElem?_rotate (by simp)] at h'
    have hk : (0 + k) % (b :: l).length < (b :: l).length := Nat.mod_lt _ (by simp)
    have : (0 + k) % (b :: l).length = 0 := by
      refine (List.getElem?_inj hk hn).mp ?_
      rw [h', h]
    rw [zero_add] at this
    rw [← List.rotate_mod, this, List.rotate_zero]

theorem rotTo_congr {α : Type} [DecidableEq α] {mn : α} {l l' : List α} (hn : l.Nodup) (hm : mn ∈ l)
    (hr : l.IsRotated l') : rotTo mn l = rotTo mn l' := by
  have h1 : (rotTo mn l).IsRotated (rotTo mn l') :=
    ((rotTo_isRotated mn l).symm.trans hr).trans (rotTo_isRotated mn l')
  refine rotated_head_unique ?_ h1 (rotTo_head hm) (rotTo_head ((hr.mem_iff).mp hm))
  exact (rotTo_isRotated mn l).nodup_iff.mp hn

theorem filter_idx {α : Type} [DecidableEq α] {l : List α} (hn : l.Nodup) {mn : α} (h : mn ∈ l) :
    ((List.range l.length).filter fun i => decide (l[i]? = some mn)) = [l.idxOf mn] := by
  have hl := List.idxOf_lt_length_of_mem h
  have key : ∀ i ∈ List.range l.length, decide (l[i]? = some mn) = decide (i = l.idxOf mn) := by
    intro i hi
    have hi' := List.mem_range.mp hi
    rw [decide_eq_decide]
    constructor
    · intro e
      refine (List.getElem?_inj hi' hn).mp ?_
      rw [e, List.getElem?_eq_getElem hl, List.getElem_idxOf]
    · rintro rfl
      rw [List.getElem?_eq_getElem hl, List.getElem_idxOf]
  rw [List.filter_congr key]
  have := List.nodup_range (n := l.length)
  have h2 : (List.range l.length).filter (fun i => decide (i = l.idxOf mn)) =
      (List.range l.length).filter (fun i => i == l.idxOf mn) := by
    apply List.filter_congr; intro x _; simp [beq_eq_decide]
  rw [h2, List.filter_beq, List.count_eq_one_of_mem this (List.mem_range.mpr hl)]
  rfl

theorem canonical_eq {α : Type} [LinearOrder α] {l : List α} (hn : l.Nodup) {mn : α} (h : minOf l = some mn) :
    canonical l = some (min (rotTo mn l) (rotTo mn l.reverse)) := by
  have hm := (minOf_spec h).1
  unfold canonical
  simp only [h, filter_idx hn hm, canonLoop, rotTo, min_def]

theorem canonical_sameCycle {α : Type} [LinearOrder α] {l c : List α} (hn : l.Nodup) (h : canonical l = some c) :
    SameCycle c l := by
  cases e : minOf l with
  | none => simp [canonical, e] at h
  | some mn =>
    rw [canonical_eq hn e, Option.some.injEq] at h
    subst h
    rcases min_choice (rotTo mn l) (rotTo mn l.reverse) with h | h
    · rw [h]; exact Or.inl (rotTo_isRotated mn l).symm
    · rw [h]; exact Or.inr (rotTo_isRotated mn l.reverse).symm

theorem SameCycle.symm' {α : Type} {c c' : List α} (h : SameCycle c c') : SameCycle c' c := by
  rcases h with h | h
  · exact Or.inl h.symm
  · refine Or.inr ?_
    have := h.reverse
    rw [List.reverse_reverse] at this
    exact this.symm

theorem SameCycle.trans' {α : Type} {c c' c'' : List α} (h : SameCycle c c') (h' : SameCycle c' c'') :
    SameCycle c c'' := by
  rcases h with h | h <;> rcases h' with h' | h'
  · exact Or.inl (h.trans h')
  · exact Or.inr (h.trans h')
  · exact Or.inr (h.trans h'.reverse)
  · have := h'.reverse
    rw [List.reverse_reverse] at this
    exact Or.inl (h.trans this)

theorem SameCycle.mem_iff' {α : Type} {c c' : List α} (h : SameCycle c c') (x : α) : x ∈ c ↔ x ∈ c' := by
  rcases h with h | h
  · exact h.mem_iff
  · rw [h.mem_iff, List.mem_reverse]

theorem SameCycle.nodup' {α : Type} {c c' : List α} (h : SameCycle c c') (hn : c.Nodup) : c'.Nodup := by
  rcases h with h | h
  · exact h.nodup_iff.mp hn
  · exact List.nodup_reverse.mp (h.nodup_iff.mp hn)

theorem SameCycle.length' {α : Type} {c c' : List α} (h : SameCycle c c') : c.length = c'.length := by
  rcases h with h | h
  · exact h.perm.length_eq
  · rw [h.perm.length_eq, List.length_reverse]

theorem canonical_congr {α : Type} [LinearOrder α] {l l' : List α} (hn : l.Nodup) (h : SameCycle l l') :
    canonical l = canonical l' := by
  have hn' := SameCycle.nodup' h hn
  have hm := minOf_perm (SameCycle.mem_iff' h)
  cases e : minOf l with
  | none => simp [canonical, e, hm ▸ e]
  | some mn =>
    have e' := hm ▸ e
    rw [canonical_eq hn e, canonical_eq hn' e']
    have hmem := (minOf_spec e).1
    have hmem' := (minOf_spec e').1
    rcases h with h | h
    · rw [rotTo_congr hn hmem h, rotTo_congr (List.nodup_reverse.mpr hn) (List.mem_reverse.mpr hmem) h.reverse]
    · rw [rotTo_congr hn hmem h, min_comm]
      have := h.reverse
      rw [List.reverse_reverse] at this
      rw [rotTo_congr (List.nodup_reverse.mpr hn) (List.mem_reverse.mpr hmem) this]

theorem canonical_isSome {α : Type} [LinearOrder α] {l : List α} (hn : l.Nodup) (hne : l ≠ []) :
    ∃ c, canonical l = some c := by
  cases e : minOf l with
  | none => cases l with
    | nil => exact absurd rfl hne
    | cons _ _ => simp [minOf] at e
  | some mn => exact ⟨_, canonical_eq hn e⟩

/-! ### simple cycles are closed under rotation and reversal -/

theorem Adjacent.symm' {m n : Nat} {cells : List (Cell m n)} {p q : Node m n} (h : Adjacent cells p q) :
    Adjacent cells q p := by
  obtain ⟨i, j, h, h' | h'⟩ := h
  · exact ⟨i, j, h, Or.inr ⟨h'.2, h'.1⟩⟩
  · exact ⟨i, j, h, Or.inl ⟨h'.2, h'.1⟩⟩

/-- Closed chain as a predicate on all lists. -/
def ClosedChain {α : Type} (R : α → α → Prop) : List α → Prop
  | [] => True
  | a :: l => List.IsChain R (a :: l ++ [a])

theorem simpleCycle_iff {m n : Nat} (cells : List (Cell m n)) (c : List (Node m n)) :
    SimpleCycle cells c ↔ c.Nodup ∧ 3 ≤ c.length ∧ ClosedChain (Adjacent cells) c := by
  constructor
  · intro h
    refine ⟨h.nodup, h.long, ?_⟩
    cases c with
    | nil => trivial
    | cons a l => exact h.closed a l rfl
  · rintro ⟨h1, h2, h3⟩
    exact ⟨h1, h2, by rintro a l rfl; exact h3⟩

theorem closedChain_rotate_one {α : Type} {R : α → α → Prop} {l : List α} (h : ClosedChain R l) :
    ClosedChain R (l.rotate 1) := by
  cases l with
  | nil => simp [ClosedChain]
  | cons a l =>
    cases l with
    | nil => simpa using h
    | cons b l =>
      simp only [List.rotate_cons_succ, List.rotate_zero, List.cons_append]
      simp only [ClosedChain, List.cons_append] at h ⊢
      rw [List.isChain_cons_cons] at h
      have h2 := h.2
      rw [List.append_assoc]
      have : b :: (l ++ ([a] ++ [b])) = (b :: l) ++ [a] ++ [b] := by simp
      rw [this]
      refine List.IsChain.append h2 (by simp) ?_
      intro x hx y hy
      rw [List.getLast?_concat] at hx
      simp at hx hy
      subst hx hy
      exact h.1

theorem closedChain_rotated {α : Type} {R : α → α → Prop} {l l' : List α} (hr : l.IsRotated l')
    (h : ClosedChain R l) : ClosedChain R l' := by
  obtain ⟨k, rfl⟩ := hr
  induction k with
  | zero => simpa using h
  | succ k ih => rw [← List.rotate_rotate]; exact closedChain_rotate_one ih

theorem closedChain_reverse {α : Type} {R : α → α → Prop} (hs : ∀ a b, R a b → R b a) {l : List α}
    (h : ClosedChain R l) : ClosedChain R l.reverse := by
  cases l with
  | nil => simp [ClosedChain]
  | cons a l =>
    have h1 : List.IsChain R (a :: l ++ [a]).reverse := by
      rw [List.isChain_reverse]
      exact h.imp (fun x y => hs x y)
    have : (a :: l.reverse) ++ [a] = (a :: l ++ [a]).reverse := by simp
    have h2 : ClosedChain R (a :: l.reverse) := by
      simp only [ClosedChain]; rw [this]; exact h1
    refine closedChain_rotated ?_ h2
    refine ⟨1, ?_⟩
    simp

theorem SimpleCycle.same' {m n : Nat} {cells : List (Cell m n)} {c c' : List (Node m n)}
    (h : SimpleCycle cells c) (hs : SameCycle c c') : SimpleCycle cells c' := by
  rw [simpleCycle_iff] at h ⊢
  refine ⟨SameCycle.nodup' hs h.1, SameCycle.length' hs ▸ h.2.1, ?_⟩
  rcases hs with hs | hs
  · exact closedChain_rotated hs h.2.2
  · have := closedChain_reverse (fun a b => Adjacent.symm') (closedChain_rotated hs h.2.2)
    rwa [List.reverse_reverse] at this

/-! ### the search -/

theorem mem_neighbours {m n : Nat} (free : List (Cell m n)) (p q : Node m n) :
    q ∈ neighbours free p ↔ Adjacent free p q := by
  unfold Adjacent
  cases p with
  | o i =>
    simp only [neighbours, List.mem_map, List.mem_filter, List.mem_finRange, true_and, decide_eq_true_eq]
    constructor
    · rintro ⟨j, h, rfl⟩; exact ⟨i, j, h, Or.inl ⟨rfl, rfl⟩⟩
    · rintro ⟨i', j, h, ⟨h1, h2⟩ | ⟨h1, h2⟩⟩
      · cases h1; exact ⟨j, h, h2.symm⟩
      · cases h1
  | d j =>
    simp only [neighbours, List.mem_map, List.mem_filter, List.mem_finRange, true_and, decide_eq_true_eq]
    constructor
    · rintro ⟨i, h, rfl⟩; exact ⟨i, j, h, Or.inr ⟨rfl, rfl⟩⟩
    · rintro ⟨i, j', h, ⟨h1, h2⟩ | ⟨h1, h2⟩⟩
      · cases h1
      · cases h1; exact ⟨i, h, h2.symm⟩

theorem isChain_snoc {α : Type} {R : α → α → Prop} {l : List α} {x y : α} (h : List.IsChain R l)
    (hx : l.getLast? = some x) (hR : R x y) : List.IsChain R (l ++ [y]) := by
  refine List.IsChain.append h (by simp) ?_
  intro a ha b hb
  simp at hb
  rw [hx] at ha
  simp at ha
  subst ha hb
  exact hR

theorem dfs_sound {m n : Nat} (free : List (Cell m n)) (start : Node m n) (maxLength fuel : Nat) :
    ∀ (current : Node m n) (path : List (Node m n)), path.Nodup → List.IsChain (Adjacent free) path →
      path.head? = some start → path.getLast? = some current →
      ∀ c ∈ dfs free start maxLength fuel current path, SimpleCycle free c ∧ c.length ≤ maxLength := by
  induction fuel with
  | zero => intro _ _ _ _ _ _ c hc; simp [dfs] at hc
  | succ fuel ih =>
    intro current path hn hch hh hl c hc
    simp only [dfs, List.mem_flatMap] at hc
    obtain ⟨nb, hnb, hc⟩ := hc
    have hadj := (mem_neighbours free current nb).mp hnb
    split at hc
    · rename_i hst
      split at hc
      · rename_i hle
        simp only [List.mem_singleton] at hc
        subst hc
        refine ⟨⟨hn, hst.2, ?_⟩, hle⟩
        rintro c0 cs rfl
        simp at hh
        subst hh
        exact isChain_snoc hch hl (hst.1 ▸ hadj)
      · simp at hc
    · split at hc
      · simp at hc
      · rename_i hni
        split at hc
        · simp at hc
        · refine ih nb (path ++ [nb]) ?_ (isChain_snoc hch hl hadj) ?_ (by simp) c hc
          · rw [List.nodup_append]
            refine ⟨hn, by simp, ?_⟩
            intro a ha b hb
            simp at hb; subst hb
            rintro rfl; exact hni ha
          · cases path with
            | nil => simp at hh
            | cons _ _ => simpa using hh

theorem dfs_complete {m n : Nat} (free : List (Cell m n)) (start : Node m n) (maxLength : Nat)
    (cs : List (Node m n)) (hc : SimpleCycle free (start :: cs)) (hlen : (start :: cs).length ≤ maxLength) :
    ∀ (todo done : List (Node m n)) (current : Node m n) (fuel : Nat), start :: cs = done ++ todo →
      done.getLast? = some current → todo.length < fuel →
      (start :: cs) ∈ dfs free start maxLength fuel current done := by
  have hclosed := hc.closed start cs rfl
  intro todo
  induction todo with
  | nil =>
    intro done current fuel hd hl hf
    simp only [List.append_nil] at hd
    subst hd
    obtain ⟨fuel, rfl⟩ : ∃ k, fuel = k + 1 := ⟨fuel - 1, by simp at hf; omega⟩
    simp only [dfs, List.mem_flatMap]
    refine ⟨start, ?_, ?_⟩
    · rw [mem_neighbours]
      rw [List.isChain_append] at hclosed
      exact hclosed.2.2 current hl start (by simp)
    · simp only [true_and, hc.long, if_true, hlen, List.mem_singleton]
  | cons nb todo ih =>
    intro done current fuel hd hl hf
    obtain ⟨fuel, rfl⟩ : ∃ k, fuel = k + 1 := ⟨fuel - 1, by simp at hf; omega⟩
    have hdne : done ≠ [] := by rintro rfl; simp at hl
    obtain ⟨d0, ds, rfl⟩ : ∃ a l, done = a :: l := by
      cases done with
      | nil => exact absurd rfl hdne
      | cons a l => exact ⟨a, l, rfl⟩
    have hd0 : start = d0 := by
      have := congrArg List.head? hd; simpa using this
    subst hd0
    have hn := hc.nodup
    rw [hd] at hn
    rw [List.nodup_append] at hn
    have hnotin : nb ∉ start :: ds := fun h => hn.2.2 nb h nb (by simp) rfl
    have hlen2 : (start :: ds).length + 1 ≤ maxLength := by
      have := congrArg List.length hd
      simp only [List.length_append, List.length_cons] at this hlen ⊢
      omega
    simp only [dfs, List.mem_flatMap]
    refine ⟨nb, ?_, ?_⟩
    · rw [mem_neighbours]
      have e : start :: cs ++ [start] = (start :: ds) ++ (nb :: (todo ++ [start])) := by rw [hd]; simp
      rw [e, List.isChain_append] at hclosed
      exact hclosed.2.2 current hl nb (by simp)
    · have hne : ¬ (nb = start ∧ 3 ≤ (start :: ds).length) := by
        rintro ⟨rfl, _⟩; exact hnotin (by simp)
      rw [if_neg hne, if_neg hnotin, if_neg (by omega)]
      refine ih (start :: ds ++ [nb]) nb fuel ?_ List.getLast?_concat ?_
      · rw [hd]; simp
      · simp only [List.length_cons] at hf; omega

theorem mem_origins {m n : Nat} (free : List (Cell m n)) (p : Node m n) :
    p ∈ origins free ↔ ∃ i j, p = .o i ∧ (i, j) ∈ free := by
  simp only [origins, List.mem_map, List.mem_filter, List.mem_finRange, true_and, List.any_eq_true, decide_eq_true_eq]
  constructor
  · rintro ⟨i, ⟨⟨i', j⟩, hc, he⟩, rfl⟩
    simp only at he; subst he; exact ⟨i', j, rfl, hc⟩
  · rintro ⟨i, j, rfl, h⟩; exact ⟨i, ⟨(i, j), h, rfl⟩, rfl⟩

theorem simpleCycle_has_origin {m n : Nat} {free : List (Cell m n)} {c : List (Node m n)}
    (hc : SimpleCycle free c) : ∃ p ∈ c, p ∈ origins free := by
  have h3 := hc.long
  obtain ⟨a, b, rest, rfl⟩ : ∃ a b rest, c = a :: b :: rest := by
    match c, h3 with
    | a :: b :: rest, _ => exact ⟨a, b, rest, rfl⟩
  have hcl := hc.closed a (b :: rest) rfl
  simp only [List.cons_append, List.isChain_cons_cons] at hcl
  obtain ⟨i, j, hf, h | h⟩ := hcl.1
  · exact ⟨a, by simp, (mem_origins _ _).mpr ⟨i, j, h.1, hf⟩⟩
  · exact ⟨b, by simp, (mem_origins _ _).mpr ⟨i, j, h.2, hf⟩⟩

theorem findAllCycles_sound {m n : Nat} [LinearOrder (Node m n)] (free : List (Cell m n)) (maxLength : Nat)
    {c : List (Node m n)} (h : c ∈ findAllCycles free maxLength) :
    SimpleCycle free c ∧ c.length ≤ maxLength ∧ canonical c = some c := by
  simp only [findAllCycles, List.mem_dedup, List.mem_filterMap, List.mem_flatMap] at h
  obtain ⟨p, ⟨o, ho, hp⟩, hcan⟩ := h
  obtain ⟨hs, hl⟩ := dfs_sound free o maxLength _ o [o] (by simp) (by simp) (by simp) (by simp) p hp
  have hsame := canonical_sameCycle hs.nodup hcan
  have := SimpleCycle.same' hs (SameCycle.symm' hsame)
  refine ⟨this, SameCycle.length' hsame ▸ hl, ?_⟩
  rw [canonical_congr this.nodup hsame, hcan]

theorem findAllCycles_complete {m n : Nat} [LinearOrder (Node m n)] (free : List (Cell m n)) (maxLength : Nat)
    {c : List (Node m n)} (hc : SimpleCycle free c) (hl : c.length ≤ maxLength) :
    ∃ c' ∈ findAllCycles free maxLength, SameCycle c' c := by
  obtain ⟨p, hpc, hpo⟩ := simpleCycle_has_origin hc
  have hrot := rotTo_isRotated p c
  have hhead := rotTo_head hpc
  obtain ⟨cs, hcs⟩ : ∃ cs, rotTo p c = p :: cs := by
    cases e : rotTo p c with
    | nil => rw [e] at hhead; simp at hhead
    | cons a l => rw [e] at hhead; simp at hhead; subst hhead; exact ⟨l, rfl⟩
  rw [hcs] at hrot
  have hs2 := SimpleCycle.same' hc (Or.inl hrot)
  have hl2 : (p :: cs).length ≤ maxLength := hrot.perm.length_eq ▸ hl
  have hmem := dfs_complete free p maxLength cs hs2 hl2 cs [p] p (maxLength + 1) rfl (by simp)
    (by simp only [List.length_cons] at hl2; omega)
  obtain ⟨k, hk⟩ := canonical_isSome hs2.nodup (by simp)
  refine ⟨k, ?_, ?_⟩
  · simp only [findAllCycles, List.mem_dedup, List.mem_filterMap, List.mem_flatMap]
    exact ⟨p :: cs, ⟨p, hpo, hmem⟩, hk⟩
  · exact SameCycle.trans' (canonical_sameCycle hs2.nodup hk) (Or.inl hrot.symm)

end GeNSIT
