import Verif.Config.ValidateRun

/-!
# Positions of the parameters
-/

namespace GeNSIT

open Spec

theorem isPlain_leaf (a : Atom) (p : List Key) : IsPlain (.leaf a) p ↔ p = [] := by
  unfold IsPlain
  cases p with
  | nil => simp [readAt]
  | cons k p => simp [readAt]

theorem isSwept_leaf (a : Atom) (p : List Key) : ¬ IsSwept (.leaf a) p := by
  unfold IsSwept
  cases p <;> simp [readAt]

theorem isPlain_nil {l : Bool} {es : List (Key × Cfg)} : ¬ IsPlain (.node l es) [] := by
  unfold IsPlain; simp [readAt]

theorem isPlain_cons {l : Bool} {es : List (Key × Cfg)} {k : Key} {p : List Key} :
    IsPlain (.node l es) (k :: p) ↔ k ≠ .str "sweep" ∧ ∃ v, es.lookup k = some v ∧ IsPlain v p := by
  unfold IsPlain
  simp only [List.mem_cons, not_or, readAt]
  cases h : es.lookup k with
  | none => simp
  | some v => simp [eq_comm, and_assoc]

theorem isSwept_cons {l : Bool} {es : List (Key × Cfg)} {k : Key} {p : List Key} :
    IsSwept (.node l es) (k :: p) ↔ ∃ v, es.lookup k = some v ∧ IsSwept v p := by
  unfold IsSwept
  simp only [List.cons_append, readAt]
  cases h : es.lookup k with
  | none => simp
  | some v => simp

theorem isSwept_nil {l : Bool} {es : List (Key × Cfg)} : IsSwept (.node l es) [] ↔ (es.lookup (.str "sweep")).isSome := by
  unfold IsSwept
  simp only [List.nil_append, readAt]
  cases es.lookup (.str "sweep") <;> simp

theorem isPlain_sweepNode {l : Bool} {w : Cfg} {p : List Key} : ¬ IsPlain (.node l [(.str "sweep", w)]) p := by
  cases p with
  | nil => exact isPlain_nil
  | cons k p =>
    rw [isPlain_cons]
    rintro ⟨h1, v, h2, _⟩
    rw [List.lookup_cons] at h2
    split at h2
    · rename_i h; exact h1 (by simpa using h)
    · cases h2

theorem isSwept_sweepNode {l : Bool} {a b : Atom} {p : List Key} :
    IsSwept (.node l [(.str "sweep", .node false [(.str "default", .leaf a), (.str "range", .leaf b)])]) p ↔ p = [] := by
  constructor
  · intro h
    cases p with
    | nil => rfl
    | cons k p =>
      exfalso
      rw [isSwept_cons] at h
      obtain ⟨v, h2, h3⟩ := h
      rw [List.lookup_cons] at h2
      split at h2
      · simp only [Option.some.injEq] at h2
        subst h2
        cases p with
        | nil => rw [isSwept_nil] at h3; exact absurd (show (none : Option Cfg).isSome = true from h3) (by simp)
        | cons k2 p =>
          rw [isSwept_cons] at h3
          obtain ⟨v, h2, h3⟩ := h3
          have := lookup_mem h2
          simp only [List.mem_cons, Prod.mk.injEq, List.not_mem_nil, or_false] at this
          rcases this with ⟨_, rfl⟩ | ⟨_, rfl⟩
          · exact isSwept_leaf _ _ h3
          · exact isSwept_leaf _ _ h3
      · cases h2
  · rintro rfl
    rw [isSwept_nil]; rfl

mutual
theorem mem_paramsOf : ∀ (c : Cfg), ParamTree c → ∀ (p : List Key) (b : Bool),
    (p, b) ∈ paramsOf c ↔ (b = false ∧ IsPlain c p) ∨ (b = true ∧ IsSwept c p)
  | .leaf a, _, p, b => by
    rw [paramsOf, isPlain_leaf]
    have := isSwept_leaf a p
    simp only [List.mem_singleton, Prod.mk.injEq, this, and_false, or_false]
    exact and_comm
  | .node l es, ht, p, b => by
    rw [paramsOf]
    split
    · rename_i hs
      obtain ⟨x, y, rfl, rfl⟩ := sweep_node ht hs
      rw [isSwept_sweepNode]
      simp only [List.mem_singleton, Prod.mk.injEq, isPlain_sweepNode, and_false, false_or]
      exact and_comm
    · rename_i hs
      have hw := (ht.wf [] l es rfl).1
      rw [mem_paramsOfEntries es (fun e he => ht.child he) p b]
      constructor
      · rintro ⟨e, he, r, rfl, h⟩
        have hl : es.lookup e.1 = some e.2 := lookup_of_mem hw he
        have hk : e.1 ≠ .str "sweep" := by rintro heq; rw [← heq, hl] at hs; exact hs rfl
        rcases h with ⟨h1, h2⟩ | ⟨h1, h2⟩
        · exact Or.inl ⟨h1, isPlain_cons.2 ⟨hk, e.2, hl, h2⟩⟩
        · exact Or.inr ⟨h1, isSwept_cons.2 ⟨e.2, hl, h2⟩⟩
      · intro h
        cases p with
        | nil =>
          rcases h with ⟨_, h⟩ | ⟨_, h⟩
          · exact absurd h isPlain_nil
          · exact absurd (isSwept_nil.1 h) hs
        | cons k r =>
          rcases h with ⟨h1, h⟩ | ⟨h1, h⟩
          · obtain ⟨_, v, hl, hp⟩ := isPlain_cons.1 h
            exact ⟨(k, v), lookup_mem hl, r, rfl, Or.inl ⟨h1, hp⟩⟩
          · obtain ⟨v, hl, hp⟩ := isSwept_cons.1 h
            exact ⟨(k, v), lookup_mem hl, r, rfl, Or.inr ⟨h1, hp⟩⟩

theorem mem_paramsOfEntries : ∀ (es : List (Key × Cfg)), (∀ e ∈ es, ParamTree e.2) → ∀ (p : List Key) (b : Bool),
    (p, b) ∈ paramsOfEntries es ↔
      ∃ e ∈ es, ∃ r, p = e.1 :: r ∧ ((b = false ∧ IsPlain e.2 r) ∨ (b = true ∧ IsSwept e.2 r))
  | [], _, p, b => by simp [paramsOfEntries]
  | e :: rest, ht, p, b => by
    rw [paramsOfEntries, List.mem_append, mem_paramsOfEntry e (ht e (by simp)) p b,
      mem_paramsOfEntries rest (fun e he => ht e (by simp [he])) p b]
    simp only [List.mem_cons, exists_eq_or_imp]

theorem mem_paramsOfEntry : ∀ (e : Key × Cfg), ParamTree e.2 → ∀ (p : List Key) (b : Bool),
    (p, b) ∈ paramsOfEntry e ↔ ∃ r, p = e.1 :: r ∧ ((b = false ∧ IsPlain e.2 r) ∨ (b = true ∧ IsSwept e.2 r))
  | (k, v), ht, p, b => by
    rw [paramsOfEntry]
    simp only [List.mem_map, Prod.exists, Prod.mk.injEq]
    constructor
    · rintro ⟨r, b', hm, rfl, rfl⟩
      exact ⟨r, rfl, (mem_paramsOf v ht r b').1 hm⟩
    · rintro ⟨r, rfl, h⟩
      exact ⟨r, b, (mem_paramsOf v ht r b).2 h, rfl, rfl⟩
end

theorem Spec.Unrelated.cons {k : Key} {p q : List Key} (h : Unrelated p q) : Unrelated (k :: p) (k :: q) :=
  ⟨fun h' => h.1 ((List.prefix_cons_inj k).1 h'), fun h' => h.2 ((List.prefix_cons_inj k).1 h')⟩

theorem unrelated_of_head {k k' : Key} {p q : List Key} (h : k ≠ k') : Unrelated (k :: p) (k' :: q) :=
  ⟨fun h' => h (List.cons_prefix_cons.1 h').1, fun h' => h (List.cons_prefix_cons.1 h').1.symm⟩

theorem Spec.Unrelated.symm {p q : List Key} (h : Unrelated p q) : Unrelated q p := ⟨h.2, h.1⟩

theorem Spec.Unrelated.append {p q : List Key} (h : Unrelated p q) (r : List Key) : Unrelated p (q ++ r) := by
  refine ⟨fun h' => ?_, fun h' => h.2 ((List.prefix_append q r).trans h')⟩
  rcases List.prefix_or_prefix_of_prefix h' (List.prefix_append q r) with h1 | h1
  · exact h.1 h1
  · exact h.2 h1

mutual
theorem paramsOf_pairwise : ∀ (c : Cfg), ParamTree c → (paramsOf c).Pairwise fun x y => Unrelated x.1 y.1
  | .leaf a, _ => by rw [paramsOf]; exact List.pairwise_singleton _ _
  | .node l es, ht => by
    rw [paramsOf]
    split
    · exact List.pairwise_singleton _ _
    · exact paramsOfEntries_pairwise es (ht.wf [] l es rfl).1 (fun e he => ht.child he)

theorem paramsOfEntries_pairwise : ∀ (es : List (Key × Cfg)), (es.map Prod.fst).Nodup → (∀ e ∈ es, ParamTree e.2) →
    (paramsOfEntries es).Pairwise fun x y => Unrelated x.1 y.1
  | [], _, _ => by rw [paramsOfEntries]; exact List.Pairwise.nil
  | e :: rest, hn, ht => by
    rw [paramsOfEntries, List.pairwise_append]
    rw [List.map_cons, List.nodup_cons] at hn
    refine ⟨paramsOfEntry_pairwise e (ht e (by simp)),
      paramsOfEntries_pairwise rest hn.2 (fun e he => ht e (by simp [he])), ?_⟩
    rintro ⟨p, b⟩ hx ⟨q, b'⟩ hy
    obtain ⟨r, rfl, _⟩ := (mem_paramsOfEntry e (ht e (by simp)) p b).1 hx
    obtain ⟨e', he', r', rfl, _⟩ := (mem_paramsOfEntries rest (fun e he => ht e (by simp [he])) q b').1 hy
    exact unrelated_of_head (fun h => hn.1 (h ▸ List.mem_map_of_mem he'))

theorem paramsOfEntry_pairwise : ∀ (e : Key × Cfg), ParamTree e.2 →
    (paramsOfEntry e).Pairwise fun x y => Unrelated x.1 y.1
  | (k, v), ht => by
    rw [paramsOfEntry, List.pairwise_map]
    exact (paramsOf_pairwise v ht).imp fun h => h.cons
end

theorem plain_endsInName : ∀ (r : List Key) (c : Cfg), ParamTree c → c.isDict = true → IsPlain c r → ∃ q n, r = q ++ [.str n] := by
  intro r c ht hd hp
  rcases List.eq_nil_or_concat r with rfl | ⟨q, k, rfl⟩
  · cases c with
    | leaf a => cases hd
    | node l es => exact absurd hp isPlain_nil
  · obtain ⟨_, a, ha⟩ := hp
    rw [List.concat_eq_append] at ha ⊢
    have key : ∀ (q : List Key) (c : Cfg), readAt c (q ++ [k]) = some (.leaf a) →
        ∃ l es, readAt c q = some (.node l es) ∧ es.lookup k = some (.leaf a) := by
      intro q
      induction q with
      | nil =>
        intro c h
        cases c with
        | leaf a => simp [readAt] at h
        | node l es =>
          refine ⟨l, es, rfl, ?_⟩
          simp only [List.nil_append, readAt] at h
          cases hk : es.lookup k with
          | none => rw [hk] at h; simp at h
          | some v => rw [hk] at h; simpa using h
      | cons k' q ih =>
        intro c h
        cases c with
        | leaf a => simp [readAt] at h
        | node l es =>
          simp only [List.cons_append, readAt] at h ⊢
          cases hk : es.lookup k' with
          | none => rw [hk] at h; simp at h
          | some v => rw [hk] at h; exact ih v h
    obtain ⟨l, es, h1, h2⟩ := key q c ha
    cases l with
    | false =>
      obtain ⟨n, hn⟩ := ht.names q es h1 (k, .leaf a) (lookup_mem h2)
      exact ⟨q, n, by rw [show k = .str n from hn]⟩
    | true =>
      obtain ⟨es', h3, _⟩ := ht.elems q es h1 (k, .leaf a) (lookup_mem h2)
      cases h3

theorem swept_endsInName : ∀ (r : List Key) (c : Cfg), ParamTree c → readAt c [.str "sweep"] = none → IsSwept c r →
    ∃ q n, r = q ++ [.str n] := by
  intro r c ht hs hp
  rcases List.eq_nil_or_concat r with rfl | ⟨q, k, rfl⟩
  · unfold IsSwept at hp
    rw [List.nil_append, hs] at hp
    cases hp
  · rw [List.concat_eq_append] at hp ⊢
    obtain ⟨w, hw⟩ := Option.isSome_iff_exists.1 hp
    have hw' := (ht.sweeps _ w hw).1
    have key : ∀ (q : List Key) (c x : Cfg), readAt c (q ++ [k]) = some x →
        ∃ l es, readAt c q = some (.node l es) ∧ es.lookup k = some x := by
      intro q
      induction q with
      | nil =>
        intro c x h
        cases c with
        | leaf a => simp [readAt] at h
        | node l es =>
          refine ⟨l, es, rfl, ?_⟩
          simp only [List.nil_append, readAt] at h
          cases hk : es.lookup k with
          | none => rw [hk] at h; simp at h
          | some v =>
            rw [hk] at h
            simp only [Option.some.injEq] at h
            rw [h]
      | cons k' q ih =>
        intro c x h
        cases c with
        | leaf a => simp [readAt] at h
        | node l es =>
          simp only [List.cons_append, readAt] at h ⊢
          cases hk : es.lookup k' with
          | none => rw [hk] at h; simp at h
          | some v => rw [hk] at h; exact ih v x h
    obtain ⟨l, es, h1, h2⟩ := key q c _ hw'
    cases l with
    | false =>
      obtain ⟨n, hn⟩ := ht.names q es h1 (k, _) (lookup_mem h2)
      exact ⟨q, n, by rw [show k = .str n from hn]⟩
    | true =>
      obtain ⟨es', h3, h4⟩ := ht.elems q es h1 (k, _) (lookup_mem h2)
      simp only [Cfg.node.injEq] at h3
      rw [← h3.2] at h4
      simp at h4

theorem below_nil (xs : List (List Key × Bool)) : below [] xs = xs := by simp [below]

/-- Validation is the loop over the parameters. -/
theorem validateConfig_eq (chk : ValueCheck) (params sch settings : Cfg) (ht : ParamTree params) (hd : params.isDict = true)
    (hs : readAt params [.str "sweep"] = none) :
    validateConfig chk params sch settings = visits chk sch (paramsOf params) (VState.start settings) := by
  rw [validateConfig, run_cfg chk sch params [] (VState.start settings) ht (fun p hp => by simpa using ht.distinct p hp), below_nil]
  · cases visits chk sch (paramsOf params) (VState.start settings) <;> rfl
  · cases params with
    | leaf a => cases hd
    | node l es =>
      refine ⟨l, es, rfl, ?_⟩
      simp only [readAt] at hs
      cases h : es.lookup (.str "sweep") with
      | none => rfl
      | some v => rw [h] at hs; simp at hs

end GeNSIT
