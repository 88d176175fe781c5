import Verif.Sweep.Lemmas
import Verif.Config.FlatLemmas
import Mathlib.Tactic.Linarith

/-! # Sweeps: helper lemmas (settings, ids, groups, slices) -/

set_option linter.unusedSimpArgs false

namespace GeNSIT

open Spec

/-! ### writing values -/

theorem pathSet_readAt (v : Cfg) (ks : List Key) : ∀ (k : Key) (s : Cfg),
    (∀ q, q <+: (k :: ks).dropLast → ∃ es, readAt s q = some (.node false es)) →
    ∃ s', pathSet false s v (k :: ks) = some (s', true) ∧ readAt s' (k :: ks) = some v ∧
      (∀ q, Unrelated (k :: ks) q → readAt s' q = readAt s q) ∧
      (∀ q, q <+: (k :: ks).dropLast → ∃ es, readAt s' q = some (.node false es)) := by
  induction ks with
  | nil =>
    intro k s h
    obtain ⟨es, hes⟩ := h [] List.nil_prefix
    rw [readAt_nil, Option.some.injEq] at hes
    subst hes
    refine ⟨.node false (setEntry es k v), rfl, by simp [readAt, lookup_setEntry_self, readAt_nil], ?_, ?_⟩
    · intro q hu
      cases q with
      | nil => exact absurd List.nil_prefix hu.2
      | cons k2 q =>
        have hne : k2 ≠ k := by rintro rfl; exact hu.1 (by simp)
        simp only [readAt, lookup_setEntry_ne es v hne]
    · intro q hq
      have : q = [] := by simpa using hq
      subst this; exact ⟨_, rfl⟩
  | cons k' ks ih =>
    intro k s h
    obtain ⟨es, hes⟩ := h [] List.nil_prefix
    rw [readAt_nil, Option.some.injEq] at hes
    subst hes
    rw [List.dropLast_cons_of_ne_nil (by simp)] at h
    have hk : ∃ sub, es.lookup k = some sub := by
      obtain ⟨es1, h1⟩ := h [k] (by simp [List.cons_prefix_cons])
      simp only [readAt] at h1
      split at h1
      · cases h1
      · rename_i sub hsub; exact ⟨sub, hsub⟩
    obtain ⟨sub, hsub⟩ := hk
    obtain ⟨sub', h1, h2, h3, h4⟩ := ih k' sub (by
      intro q hq
      obtain ⟨es1, h1⟩ := h (k :: q) ((List.prefix_cons_inj k).mpr hq)
      simp only [readAt, hsub] at h1
      exact ⟨es1, h1⟩)
    refine ⟨.node false (setEntry es k sub'), by simp [pathSet, hsub, h1], ?_, ?_, ?_⟩
    · rw [readAt, lookup_setEntry_self]; exact h2
    · intro q hu
      cases q with
      | nil => exact absurd List.nil_prefix hu.2
      | cons k2 q =>
        by_cases hne : k2 = k
        · subst hne
          simp only [readAt, lookup_setEntry_self, hsub]
          exact h3 q ⟨fun hp => hu.1 ((List.prefix_cons_inj k2).mpr hp), fun hp => hu.2 ((List.prefix_cons_inj k2).mpr hp)⟩
        · simp only [readAt, lookup_setEntry_ne es sub' hne]
    · intro q hq
      rw [List.dropLast_cons_of_ne_nil (by simp)] at hq
      cases q with
      | nil => exact ⟨_, rfl⟩
      | cons k2 q =>
        rw [List.cons_prefix_cons] at hq
        obtain ⟨rfl, hq⟩ := hq
        simp only [readAt, lookup_setEntry_self]
        exact h4 q hq

/-- A writable path: not empty, and all containers on the way are dictionaries. -/
def Writable (s : Cfg) (p : List Key) : Prop :=
  p ≠ [] ∧ ∀ q, q <+: p.dropLast → ∃ es, readAt s q = some (.node false es)

theorem pathSet_writable {s v : Cfg} {p : List Key} (h : Writable s p) :
    ∃ s', pathSet false s v p = some (s', true) ∧ readAt s' p = some v ∧
      (∀ q, Unrelated p q → readAt s' q = readAt s q) ∧
      (∀ p', Unrelated p p' → Writable s p' → Writable s' p') := by
  cases p with
  | nil => exact absurd rfl h.1
  | cons k ks =>
    obtain ⟨s', h1, h2, h3, h4⟩ := pathSet_readAt v ks k s h.2
    refine ⟨s', h1, h2, h3, ?_⟩
    rintro p' hu ⟨hne, hp'⟩
    refine ⟨hne, ?_⟩
    intro q hq
    by_cases hqp : q <+: k :: ks
    · -- a proper prefix of the written path
      have hne' : q ≠ k :: ks := by
        rintro rfl
        exact hu.1 (hq.trans (List.dropLast_prefix p'))
      apply h4
      obtain ⟨t, ht⟩ := hqp
      have htn : t ≠ [] := by rintro rfl; exact hne' (by simpa using ht)
      rw [← ht, List.dropLast_append_of_ne_nil htn]
      exact ⟨t.dropLast, rfl⟩
    · rw [h3 q ⟨fun hp => hu.1 (hp.trans (hq.trans (List.dropLast_prefix p'))), hqp⟩]
      exact hp' q hq

theorem unrelated_symm {p q : List Key} (h : Unrelated p q) : Unrelated q p := ⟨h.2, h.1⟩

theorem applySweep_spec (ps : List SweepParam) : ∀ (vs : List Cfg) (s : Cfg), ps.length ≤ vs.length →
    (∀ p ∈ ps, Writable s p.path) → ps.Pairwise (fun a b => Unrelated a.path b.path) →
    ∃ s', applySweep s ps vs = some s' ∧
      (∀ i (h : i < ps.length), readAt s' ps[i].path = vs[i]?) ∧
      (∀ q, (∀ p ∈ ps, Unrelated p.path q) → readAt s' q = readAt s q) := by
  induction ps with
  | nil => intro vs s _ _ _; exact ⟨s, rfl, by simp, fun _ _ => rfl⟩
  | cons p ps ih =>
    intro vs s hlen hw hp
    cases vs with
    | nil => simp at hlen
    | cons v vs =>
      rw [List.pairwise_cons] at hp
      obtain ⟨s1, h1, h2, h3, h4⟩ := pathSet_writable (v := v) (hw p (by simp))
      obtain ⟨s', g1, g2, g3⟩ := ih vs s1 (by simpa using hlen)
        (fun p' hp' => h4 _ (hp.1 p' hp') (hw p' (by simp [hp']))) hp.2
      refine ⟨s', by simp [applySweep, h1, g1], ?_, ?_⟩
      · intro i hi
        cases i with
        | zero =>
          simp only [List.getElem_cons_zero, List.getElem?_cons_zero]
          rw [g3 p.path (fun p' hp' => unrelated_symm (hp.1 p' hp')), h2]
        | succ i =>
          simp only [List.getElem_cons_succ, List.getElem?_cons_succ]
          exact g2 i (by simpa using hi)
      · intro q hq
        rw [g3 q (fun p' hp' => hq p' (by simp [hp'])), h3 q (hq p (by simp))]

theorem map_fst_zip_sublist {α β : Type} (a : List α) : ∀ (b : List β), ((a.zip b).map Prod.fst).Sublist a := by
  induction a with
  | nil => intro b; simp
  | cons x a ih =>
    intro b
    cases b with
    | nil => simp
    | cons y b => simpa using ih b

theorem sweepDict_lookup (ps : List SweepParam) (vs : List Cfg) (hn : (ps.map SweepParam.var).Nodup) (i : Nat)
    (hi : i < ps.length) (hv : i < vs.length) : (sweepDict ps vs).lookup ps[i].var = some vs[i] := by
  unfold sweepDict
  have hf : ∀ (l : List (SweepParam × Cfg)) (acc : List (Key × Cfg)),
      l.foldl (fun (acc : List (Key × Cfg)) (e : SweepParam × Cfg) => setEntry acc e.1.var e.2) acc =
      (l.map fun e => (e.1.var, e.2)).foldl (fun (acc : List (Key × Cfg)) (e : Key × Cfg) => setEntry acc e.1 e.2) acc := by
    intro l
    induction l with
    | nil => intro acc; rfl
    | cons e l ih => intro acc; simp [ih]
  rw [hf, foldl_setEntry_lookup]
  have hnd : (((ps.zip vs).map fun e => (e.1.var, e.2)).map Prod.fst).Nodup := by
    rw [List.map_map]
    have : (Prod.fst ∘ fun (e : SweepParam × Cfg) => (e.1.var, e.2)) = SweepParam.var ∘ Prod.fst := rfl
    rw [this, ← List.map_map]
    refine List.Sublist.nodup ?_ hn
    refine List.Sublist.map _ ?_
    exact map_fst_zip_sublist ps vs
  have hmem : (ps[i].var, vs[i]) ∈ ((ps.zip vs).map fun e => (e.1.var, e.2)).reverse := by
    rw [List.mem_reverse, List.mem_map]
    refine ⟨(ps[i], vs[i]), ?_, rfl⟩
    have h : i < (ps.zip vs).length := by simp [hi, hv]
    have := List.getElem_mem h
    simpa using this
  rw [lookup_of_mem (by rw [List.map_reverse, List.nodup_reverse]; exact hnd) hmem]
  rfl

/-! ### lengths -/

theorem eraseDups_length_one (l : List Nat) : l.eraseDups.length = 1 ↔ ∃ n, l ≠ [] ∧ ∀ x ∈ l, x = n := by
  cases l with
  | nil => simp
  | cons a l =>
    rw [List.eraseDups_cons]
    simp only [List.length_cons, Nat.add_eq_right, List.length_eq_zero_iff]
    constructor
    · intro h
      refine ⟨a, by simp, ?_⟩
      intro x hx
      rcases List.mem_cons.mp hx with rfl | hx
      · rfl
      · by_contra hne
        have hm : x ∈ l.filter (fun b => !b == a) := by
          rw [List.mem_filter]; exact ⟨hx, by simpa using hne⟩
        have : x ∈ (l.filter (fun b => !b == a)).eraseDups := by simpa using hm
        rw [h] at this; simp at this
    · rintro ⟨n, _, h⟩
      have ha : a = n := h a (by simp)
      have : l.filter (fun b => !b == a) = [] := by
        rw [List.filter_eq_nil_iff]
        intro x hx
        simp [h x (by simp [hx]), ha]
      rw [this]; simp

theorem valLens_aux {V : Type} (params : List (CoupledParam V)) : ∀ (acc : List (Option Key × Nat)),
    (params.map fun c => c.path.getLast?).Nodup → (∀ e ∈ acc, ∀ c ∈ params, e.1 ≠ c.path.getLast?) →
    params.foldl (fun (acc : List (Option Key × Nat)) (c : CoupledParam V) =>
      (c.path.getLast?, c.values.length) :: acc.filter fun (e : Option Key × Nat) => decide (e.1 ≠ c.path.getLast?)) acc =
    (params.map fun c => (c.path.getLast?, c.values.length)).reverse ++ acc := by
  induction params with
  | nil => intro acc _ _; simp
  | cons c params ih =>
    intro acc hn hacc
    simp only [List.map_cons, List.nodup_cons] at hn
    have hf : acc.filter (fun (e : Option Key × Nat) => decide (e.1 ≠ c.path.getLast?)) = acc := by
      rw [List.filter_eq_self]
      intro e he
      simpa using hacc e he c (by simp)
    rw [List.foldl_cons, hf, ih _ hn.2]
    · simp
    · intro e he c' hc'
      rcases List.mem_cons.mp he with rfl | he
      · intro heq
        exact hn.1 (List.mem_map.mpr ⟨c', hc', heq.symm⟩)
      · exact hacc e he c' (by simp [hc'])

theorem valLens_mem {V : Type} (params : List (CoupledParam V)) : ∀ (acc : List (Option Key × Nat)) (n : Nat),
    (∀ c ∈ params, c.values.length = n) → (∀ e ∈ acc, e.2 = n) →
    ∀ e ∈ params.foldl (fun (acc : List (Option Key × Nat)) (c : CoupledParam V) =>
      (c.path.getLast?, c.values.length) :: acc.filter fun (e : Option Key × Nat) => decide (e.1 ≠ c.path.getLast?)) acc,
    e.2 = n := by
  induction params with
  | nil => intro acc n _ h; exact h
  | cons c params ih =>
    intro acc n hc hacc
    refine ih _ n (fun c' hc' => hc c' (by simp [hc'])) ?_
    intro e he
    rcases List.mem_cons.mp he with rfl | he
    · exact hc c (by simp)
    · exact hacc e (List.mem_filter.mp he).1

theorem valLens_ne_nil {V : Type} (params : List (CoupledParam V)) (h : params ≠ []) : valLens params ≠ [] := by
  unfold valLens
  have : ∀ (params : List (CoupledParam V)) (acc : List (Option Key × Nat)), acc ≠ [] →
      params.foldl (fun (acc : List (Option Key × Nat)) (c : CoupledParam V) =>
      (c.path.getLast?, c.values.length) :: acc.filter fun (e : Option Key × Nat) => decide (e.1 ≠ c.path.getLast?)) acc ≠ [] := by
    intro params
    induction params with
    | nil => intro acc h; exact h
    | cons c params ih => intro acc _; exact ih _ (by simp)
  cases params with
  | nil => exact absurd rfl h
  | cons c params => exact this params _ (by simp)

/-! ### sweep ids -/

theorem segment_append (v w : List Char) : segment (v ++ '_' :: w) = segment v := by
  unfold segment
  induction v with
  | nil => simp
  | cons c v ih =>
    simp only [List.cons_append, List.takeWhile_cons]
    by_cases h : c = '_'
    · simp [h]
    · simpa [h] using ih

theorem append_sep_inj {x x' r r' : List Char} (hx : '/' ∉ x) (hx' : '/' ∉ x') (h : x ++ '/' :: r = x' ++ '/' :: r') :
    x = x' ∧ r = r' := by
  induction x generalizing x' with
  | nil =>
    cases x' with
    | nil => simpa using h
    | cons c x' =>
      simp only [List.nil_append, List.cons_append, List.cons.injEq] at h
      exact absurd (by simp [← h.1]) hx'
  | cons c x ih =>
    cases x' with
    | nil =>
      simp only [List.nil_append, List.cons_append, List.cons.injEq] at h
      exact absurd (by simp [h.1]) hx
    | cons c' x' =>
      simp only [List.cons_append, List.cons.injEq] at h
      obtain ⟨h1, h2⟩ := ih (x' := x') (fun hm => hx (by simp [hm])) (fun hm => hx' (by simp [hm])) h.2
      exact ⟨by rw [h.1, h1], h2⟩

theorem intercalate_cons_cons (sep : List Char) (x y : List Char) (r : List (List Char)) :
    List.intercalate sep (x :: y :: r) = x ++ (sep ++ List.intercalate sep (y :: r)) := by
  simp [List.intercalate, List.intersperse]

theorem intercalate_inj (a : List (List Char)) : ∀ (b : List (List Char)), a.length = b.length →
    (∀ x ∈ a, '/' ∉ x) → (∀ x ∈ b, '/' ∉ x) → List.intercalate ['/'] a = List.intercalate ['/'] b → a = b := by
  induction a with
  | nil => intro b hl _ _ _; exact (List.length_eq_zero_iff.mp hl.symm).symm
  | cons x a ih =>
    intro b hl ha hb h
    cases b with
    | nil => simp at hl
    | cons x' b =>
      cases a with
      | nil =>
        have : b = [] := by simpa using hl.symm
        subst this
        simpa [List.intercalate, List.intersperse] using h
      | cons y a =>
        cases b with
        | nil => simp at hl
        | cons y' b =>
          rw [intercalate_cons_cons, intercalate_cons_cons] at h
          simp only [List.cons_append, List.nil_append] at h
          obtain ⟨h1, h2⟩ := append_sep_inj (ha x (by simp)) (hb x' (by simp)) h
          have := ih (y' :: b) (by simpa using hl) (fun z hz => ha z (by simp only [List.mem_cons] at hz ⊢; exact Or.inr hz))
            (fun z hz => hb z (by simp only [List.mem_cons] at hz ⊢; exact Or.inr hz)) h2
          rw [h1, this]

/-! ### slices -/

theorem allMatch_true {sweep : String → Option SVal} (l : List (String × SVal)) :
    allMatch sweep l = some true ↔ ∀ e ∈ l, ∃ v, sweep e.1 = some v ∧ coordMatch e.2 v = some true := by
  induction l with
  | nil => simp [allMatch]
  | cons e l ih =>
    obtain ⟨d, c⟩ := e
    simp only [allMatch, List.mem_cons, forall_eq_or_imp]
    cases hs : sweep d with
    | none => simp
    | some v =>
      simp only [Option.some.injEq, exists_eq_left']
      cases hc : coordMatch c v with
      | none => simp
      | some b => cases b <;> simp [ih]

theorem coordMatch_near {a b : SVal} : coordMatch a b = some true → Near a b := by
  unfold coordMatch
  split
  · intro h
    left
    simpa using h
  · rename_i h0
    simp only [not_or] at h0
    intro h
    cases b with
    | none => exact absurd rfl h0.1
    | other s => left; simpa using h
    | num y =>
      cases a with
      | none => exact absurd rfl h0.2
      | other s => simp at h
      | num x =>
        right
        simp only [isClose, Option.some.injEq, decide_eq_true_eq] at h
        exact ⟨x, y, rfl, rfl, by linarith⟩

theorem coordMatch_refl (a : SVal) : coordMatch a a = some true := by
  unfold coordMatch
  cases a with
  | none => simp
  | other s => simp
  | num x => simp [isClose]

theorem near_coordMatch {a b : SVal} (h : Near a b) : coordMatch a b = some true := by
  rcases h with rfl | ⟨x, y, rfl, rfl, h⟩
  · exact coordMatch_refl a
  · simp only [coordMatch, isClose]
    have : |x - y| ≤ 1 / 10 * max |x| |y| := by linarith
    simp only [reduceCtorEq, or_self, if_false, this, decide_true]

end GeNSIT
