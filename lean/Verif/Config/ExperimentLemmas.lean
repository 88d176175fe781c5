import Verif.Config.Experiment
import Verif.Config.ValidateProps

/-!
# Cutting paths out of a tree
-/

namespace GeNSIT.Spec

open GeNSIT

/-- The path `p` lies at or below one of the paths `Q`. -/
def Under (Q : List (List Key)) (p : List Key) : Prop := ∃ q ∈ Q, q <+: p

/-- `x'` is `x`, possibly with fewer entries if it is a dictionary, or with other contents at the same indices if it is a
list. -/
def Shrunk : Cfg → Cfg → Prop
  | .leaf a, .leaf b => a = b
  | .node l' es', .node l es => l' = l ∧ (es'.map Prod.fst).Sublist (es.map Prod.fst) ∧ (l = true → es'.map Prod.fst = es.map Prod.fst)
  | _, _ => False

/-- `s'` is `s` without what lies under the paths `Q`. -/
structure Cut (Q : List (List Key)) (s s' : Cfg) : Prop where
  only : ∀ p x', readAt s' p = some x' → ¬ Under Q p ∧ ∃ x, readAt s p = some x ∧ Shrunk x' x
  kept : ∀ p x, readAt s p = some x → ¬ Under Q p → ∃ x', readAt s' p = some x' ∧ Shrunk x' x
  same : ∀ p, (∀ q ∈ Q, Unrelated q p) → readAt s' p = readAt s p

end GeNSIT.Spec

namespace GeNSIT

open Spec

theorem Spec.Shrunk.refl : ∀ x : Cfg, Shrunk x x
  | .leaf _ => rfl
  | .node _ _ => ⟨rfl, List.Sublist.refl _, fun _ => rfl⟩

theorem Spec.Shrunk.trans : ∀ {x y z : Cfg}, Shrunk x y → Shrunk y z → Shrunk x z
  | .leaf _, .leaf _, .leaf _, h, h' => Eq.trans h h'
  | .node _ _, .node _ _, .node _ _, ⟨h1, h2, h3⟩, ⟨h1', h2', h3'⟩ =>
    ⟨h1.trans h1', h2.trans h2', fun h => (h3 (h1'.trans h)).trans (h3' h)⟩

theorem Spec.Cut.nil (s : Cfg) : Cut [] s s where
  only p x' h := ⟨(by rintro ⟨q, hq, _⟩; cases hq), x', h, Shrunk.refl _⟩
  kept p x h _ := ⟨x, h, Shrunk.refl _⟩
  same _ _ := rfl

theorem under_append {Q R : List (List Key)} {p : List Key} : Under (Q ++ R) p ↔ Under Q p ∨ Under R p := by
  unfold Under
  constructor
  · rintro ⟨q, hq, hp⟩
    rcases List.mem_append.1 hq with h | h
    · exact Or.inl ⟨q, h, hp⟩
    · exact Or.inr ⟨q, h, hp⟩
  · rintro (⟨q, hq, hp⟩ | ⟨q, hq, hp⟩)
    · exact ⟨q, List.mem_append_left _ hq, hp⟩
    · exact ⟨q, List.mem_append_right _ hq, hp⟩

theorem Spec.Cut.trans {Q R : List (List Key)} {s s1 s2 : Cfg} (h : Cut Q s s1) (h' : Cut R s1 s2) : Cut (Q ++ R) s s2 where
  only p x' hx := by
    obtain ⟨hu, x1, hx1, hs1⟩ := h'.only p x' hx
    obtain ⟨hu', x, hx, hs⟩ := h.only p x1 hx1
    exact ⟨fun hq => (under_append.1 hq).elim hu' hu, x, hx, hs1.trans hs⟩
  kept p x hx hu := by
    obtain ⟨x1, hx1, hs1⟩ := h.kept p x hx (fun hq => hu (under_append.2 (Or.inl hq)))
    obtain ⟨x2, hx2, hs2⟩ := h'.kept p x1 hx1 (fun hq => hu (under_append.2 (Or.inr hq)))
    exact ⟨x2, hx2, hs2.trans hs1⟩
  same p hp := by
    rw [h'.same p fun q hq => hp q (List.mem_append_right _ hq), h.same p fun q hq => hp q (List.mem_append_left _ hq)]

theorem eraseEntry_sublist (es : List (Key × Cfg)) (k : Key) : (eraseEntry es k).Sublist es := by
  induction es with
  | nil => exact List.Sublist.refl _
  | cons e r ih =>
    obtain ⟨k', v'⟩ := e
    rw [eraseEntry]
    split
    · exact List.sublist_cons_self _ _
    · exact ih.cons_cons _

theorem under_single {q p : List Key} : Under [q] p ↔ q <+: p := by simp [Under]

theorem setEntry_keys_of_lookup {es : List (Key × Cfg)} {k : Key} {v w : Cfg} (h : es.lookup k = some v) :
    (setEntry es k w).map Prod.fst = es.map Prod.fst := by
  induction es with
  | nil => cases h
  | cons e r ih =>
    obtain ⟨k', v'⟩ := e
    rw [setEntry]
    split
    · rfl
    · rename_i hne
      rw [List.lookup_cons] at h
      have : (k == k') = false := by simpa using hne
      rw [this] at h
      rw [List.map_cons, List.map_cons, ih h]

/-- Nothing to delete: the tree is as before. -/
theorem cut_missing {s : Cfg} {q : List Key} (h : readAt s q = none) : Cut [q] s s where
  only p x' hx := by
    refine ⟨fun hu => ?_, x', hx, Shrunk.refl _⟩
    obtain ⟨r, rfl⟩ := under_single.1 hu
    rw [readAt_prefix_none h] at hx
    cases hx
  kept p x hx _ := ⟨x, hx, Shrunk.refl _⟩
  same _ _ := rfl

/-- A change below one key. -/
theorem cut_step {l : Bool} {es : List (Key × Cfg)} {k : Key} {v v' : Cfg} {q : List Key} (hk : es.lookup k = some v)
    (h : Cut [q] v v') : Cut [k :: q] (.node l es) (.node l (setEntry es k v')) := by
  have hshr : Shrunk (.node l (setEntry es k v')) (.node l es) :=
    ⟨rfl, by rw [setEntry_keys_of_lookup hk], fun _ => setEntry_keys_of_lookup hk⟩
  refine ⟨?_, ?_, ?_⟩
  · intro p x' hx
    cases p with
    | nil =>
      rw [readAt_nil] at hx; cases hx
      exact ⟨fun hu => by simpa using under_single.1 hu, _, readAt_nil _, hshr⟩
    | cons k2 p =>
      by_cases hne : k2 = k
      · subst hne
        simp only [readAt, lookup_setEntry_self] at hx
        obtain ⟨hu, x, hx, hs⟩ := h.only p x' hx
        refine ⟨fun h => hu (under_single.2 ?_), x, ?_, hs⟩
        · exact (List.prefix_cons_inj k2).1 (under_single.1 h)
        · simp only [readAt, hk]; exact hx
      · simp only [readAt, lookup_setEntry_ne es v' hne] at hx
        refine ⟨fun h => hne (by have := under_single.1 h; rw [List.cons_prefix_cons] at this; exact this.1.symm), x', ?_, Shrunk.refl _⟩
        simp only [readAt]; exact hx
  · intro p x hx hu
    cases p with
    | nil => rw [readAt_nil] at hx; cases hx; exact ⟨_, readAt_nil _, hshr⟩
    | cons k2 p =>
      by_cases hne : k2 = k
      · subst hne
        simp only [readAt, hk] at hx
        obtain ⟨x', hx', hs⟩ := h.kept p x hx (fun h => hu (under_single.2 ((List.prefix_cons_inj k2).2 (under_single.1 h))))
        exact ⟨x', by simp only [readAt, lookup_setEntry_self]; exact hx', hs⟩
      · exact ⟨x, by simp only [readAt, lookup_setEntry_ne es v' hne] at hx ⊢; exact hx, Shrunk.refl _⟩
  · intro p hp
    have hp := hp _ (by simp : (k :: q) ∈ [k :: q])
    cases p with
    | nil => exact absurd List.nil_prefix hp.2
    | cons k2 p =>
      by_cases hne : k2 = k
      · subst hne
        simp only [readAt, lookup_setEntry_self, hk]
        refine h.same p ?_
        intro q' hq'
        simp only [List.mem_singleton] at hq'
        subst hq'
        exact ⟨fun h => hp.1 ((List.prefix_cons_inj k2).2 h), fun h => hp.2 ((List.prefix_cons_inj k2).2 h)⟩
      · simp only [readAt, lookup_setEntry_ne es v' hne]

/-- A deleted key of a dictionary. -/
theorem cut_erase {es : List (Key × Cfg)} (hn : (es.map Prod.fst).Nodup) (k : Key) :
    Cut [[k]] (.node false es) (.node false (eraseEntry es k)) := by
  have hshr : Shrunk (.node false (eraseEntry es k)) (.node false es) :=
    ⟨rfl, (eraseEntry_sublist es k).map _, fun h => by cases h⟩
  refine ⟨?_, ?_, ?_⟩
  · intro p x' hx
    cases p with
    | nil =>
      rw [readAt_nil] at hx; cases hx
      exact ⟨fun hu => by simpa using under_single.1 hu, _, readAt_nil _, hshr⟩
    | cons k2 p =>
      by_cases hne : k2 = k
      · subst hne
        simp [readAt, lookup_eraseEntry_self es hn] at hx
      · simp only [readAt, lookup_eraseEntry_ne es hne] at hx
        refine ⟨fun h => hne (by have := under_single.1 h; rw [List.cons_prefix_cons] at this; exact this.1.symm), x', ?_, Shrunk.refl _⟩
        simp only [readAt]; exact hx
  · intro p x hx hu
    cases p with
    | nil => rw [readAt_nil] at hx; cases hx; exact ⟨_, readAt_nil _, hshr⟩
    | cons k2 p =>
      by_cases hne : k2 = k
      · subst hne
        exact absurd (under_single.2 (by simp)) hu
      · exact ⟨x, by simp only [readAt, lookup_eraseEntry_ne es hne] at hx ⊢; exact hx, Shrunk.refl _⟩
  · intro p hp
    have hp := hp _ (by simp : [k] ∈ [[k]])
    cases p with
    | nil => exact absurd List.nil_prefix hp.2
    | cons k2 p =>
      have hne : k2 ≠ k := by rintro rfl; exact hp.1 (by simp)
      simp only [readAt, lookup_eraseEntry_ne es hne]

/-- Deleting a path that ends in a name from a tree; only the root must not be a list. -/
theorem pathDelete_cut (q : List Key) : ∀ (s : Cfg), WellFormed s → EndsInName q → (∀ k ∈ q, toIndex k = k) →
    pathDelete s q = none ∨ ∃ s' b, pathDelete s q = some (s', b) ∧ Cut [q] s s' := by
  induction q with
  | nil => intro s _ he; exact absurd rfl he.ne
  | cons k ks ih =>
    intro s hw he hidx
    cases ks with
    | nil =>
      cases s with
      | leaf a => exact Or.inr ⟨_, _, rfl, cut_missing rfl⟩
      | node l es =>
        obtain ⟨r, n, hr⟩ := he
        have hk : k = .str n := by
          cases r with
          | nil => simpa using hr
          | cons a r => have := congrArg List.length hr; simp at this
        subst hk
        cases l with
        | true => exact Or.inl rfl
        | false =>
          refine Or.inr ?_
          cases hs : (es.lookup (.str n)).isSome with
          | true => exact ⟨_, true, by simp only [pathDelete, hs, if_true], cut_erase (hw [] false es rfl).1 _⟩
          | false =>
            refine ⟨.node false es, false, by simp [pathDelete, hs], cut_missing ?_⟩
            simp only [readAt]
            rw [Option.isSome_eq_false_iff, Option.isNone_iff_eq_none] at hs
            rw [hs]
    | cons k' ks =>
      have he' : EndsInName (k' :: ks) := by
        obtain ⟨r, n, hr⟩ := he
        cases r with
        | nil => have := congrArg List.length hr; simp at this
        | cons a r => exact ⟨r, n, by simpa using (List.cons.inj hr).2⟩
      refine Or.inr ?_
      cases s with
      | leaf a => exact ⟨_, _, rfl, cut_missing rfl⟩
      | node l es =>
        have hki := hidx k (by simp)
        cases hk : es.lookup k with
        | none => exact ⟨.node l es, false, by simp only [pathDelete, hki, hk], cut_missing (by simp [readAt, hk])⟩
        | some sub =>
          rcases ih sub (wf_child hw (lookup_mem hk)).2 he' (fun a ha => hidx a (by simp [ha])) with h | ⟨s', b, h, hc⟩
          · refine ⟨.node l es, false, by simp only [pathDelete, hki, hk, h], cut_missing ?_⟩
            simp only [readAt, hk]
            cases hr : readAt sub (k' :: ks) with
            | none => rfl
            | some x =>
              exfalso
              have key : ∀ (r : List Key) (c : Cfg), WellFormed c → EndsInName r → pathDelete c r = none → readAt c r = none := by
                intro r c hc hr hd
                match r, c with
                | [], _ => simp [pathDelete] at hd
                | [k], .leaf a => rfl
                | [k], .node false es => simp only [pathDelete] at hd; split at hd <;> cases hd
                | [k], .node true es =>
                  obtain ⟨t, n, ht⟩ := hr
                  have hk : k = .str n := by
                    cases t with
                    | nil => simpa using ht
                    | cons a t => have := congrArg List.length ht; simp at this
                  subst hk
                  simp [readAt, list_no_str hc n]
                | k :: k' :: r, .leaf a => simp [pathDelete] at hd
                | k :: k' :: r, .node l es =>
                  simp only [pathDelete] at hd
                  split at hd
                  · cases hd
                  · split at hd <;> cases hd
              rw [key _ _ (wf_child hw (lookup_mem hk)).2 he' h] at hr
              cases hr
          · exact ⟨_, b, by simp only [pathDelete, hki, hk, h], cut_step hk hc⟩

theorem pathDelete_dict {s : Cfg} (hd : s.isDict = true) (q : List Key) : ∃ s' b, pathDelete s q = some (s', b) ∧ s'.isDict = true := by
  cases s with
  | leaf a => cases hd
  | node l es =>
    cases l with
    | true => cases hd
    | false =>
      match q with
      | [] => exact ⟨_, _, rfl, rfl⟩
      | [k] =>
        simp only [pathDelete]
        split
        · exact ⟨_, _, rfl, rfl⟩
        · exact ⟨_, _, rfl, rfl⟩
      | k :: k' :: ks =>
        simp only [pathDelete]
        split
        · exact ⟨_, _, rfl, rfl⟩
        · split
          · exact ⟨_, _, rfl, rfl⟩
          · exact ⟨_, _, rfl, rfl⟩

/-! ### What survives a cut -/

theorem Spec.Shrunk.node {x' : Cfg} {l : Bool} {es : List (Key × Cfg)} (h : Shrunk x' (.node l es)) :
    ∃ es', x' = .node l es' ∧ (es'.map Prod.fst).Sublist (es.map Prod.fst) ∧ (l = true → es'.map Prod.fst = es.map Prod.fst) := by
  cases x' with
  | leaf a => exact absurd h (by simp [Shrunk])
  | node l' es' => obtain ⟨rfl, h2, h3⟩ := h; exact ⟨es', rfl, h2, h3⟩

theorem Spec.Shrunk.node' {x : Cfg} {l : Bool} {es' : List (Key × Cfg)} (h : Shrunk (.node l es') x) :
    ∃ es, x = .node l es ∧ (es'.map Prod.fst).Sublist (es.map Prod.fst) ∧ (l = true → es'.map Prod.fst = es.map Prod.fst) := by
  cases x with
  | leaf a => exact absurd h (by simp [Shrunk])
  | node l es => obtain ⟨rfl, h2, h3⟩ := h; exact ⟨es, rfl, h2, h3⟩

theorem Spec.Shrunk.leaf {x' : Cfg} {a : Atom} (h : Shrunk x' (.leaf a)) : x' = .leaf a := by
  cases x' with
  | leaf b => rw [show b = a from h]
  | node l es => exact absurd h (by simp [Shrunk])

theorem Spec.Shrunk.leaf' {x : Cfg} {a : Atom} (h : Shrunk (.leaf a) x) : x = .leaf a := by
  cases x with
  | leaf b => rw [show a = b from h]
  | node l es => exact absurd h (by simp [Shrunk])

theorem cut_wf {Q : List (List Key)} {s s' : Cfg} (h : Cut Q s s') (hw : WellFormed s) : WellFormed s' := by
  intro p l es' hp
  obtain ⟨_, x, hx, hs⟩ := h.only p _ hp
  obtain ⟨es, rfl, h2, h3⟩ := hs.node'
  obtain ⟨hn, hl⟩ := hw p l es hx
  refine ⟨hn.sublist h2, fun hl' => ?_⟩
  have hlen : es'.length = es.length := by simpa using congrArg List.length (h3 hl')
  rw [h3 hl', hl hl', hlen]

theorem cut_names {Q : List (List Key)} {s s' : Cfg} (h : Cut Q s s')
    (hn : ∀ p es, readAt s p = some (.node false es) → ∀ e ∈ es, ∃ n, e.1 = .str n) :
    ∀ p es, readAt s' p = some (.node false es) → ∀ e ∈ es, ∃ n, e.1 = .str n := by
  intro p es' hp e he
  obtain ⟨_, x, hx, hs⟩ := h.only p _ hp
  obtain ⟨es, rfl, h2, _⟩ := hs.node'
  obtain ⟨e', he', hee⟩ := List.mem_map.1 (h2.subset (List.mem_map_of_mem he))
  obtain ⟨n, hn⟩ := hn p es hx e' he'
  exact ⟨n, by rw [← hee, hn]⟩

theorem cut_clean {Q : List (List Key)} {s s' : Cfg} (h : Cut Q s s') (hc : Clean s) : Clean s' where
  wf := cut_wf h hc.wf
  noMark p hp := by
    obtain ⟨_, x, hx, hs⟩ := h.only p _ hp
    rw [hs.leaf'] at hx
    exact hc.noMark p hx
  names := cut_names h hc.names

theorem under_snoc {Q : List (List Key)} (hQ : ∀ q ∈ Q, Key.str "sweep" ∉ q) (p r : List Key) :
    Under Q (p ++ .str "sweep" :: r) ↔ Under Q p := by
  constructor
  · rintro ⟨q, hq, hp⟩
    refine ⟨q, hq, ?_⟩
    rcases List.prefix_or_prefix_of_prefix hp (List.prefix_append p (.str "sweep" :: r)) with h | h
    · exact h
    · obtain ⟨t, rfl⟩ := h
      rw [List.prefix_append_right_inj] at hp
      cases t with
      | nil => simp
      | cons a t =>
        rw [List.cons_prefix_cons] at hp
        exact absurd (by simp [hp.1]) (hQ _ hq)
  · rintro ⟨q, hq, hp⟩
    exact ⟨q, hq, hp.trans (List.prefix_append _ _)⟩

/-- Below `sweep` a cut changes nothing but removes it as a whole. -/
theorem cut_sweep {Q : List (List Key)} {s s' : Cfg} (h : Cut Q s s') (hQ : ∀ q ∈ Q, Key.str "sweep" ∉ q) {p : List Key}
    (hu : ¬ Under Q p) (r : List Key) : readAt s' (p ++ .str "sweep" :: r) = readAt s (p ++ .str "sweep" :: r) := by
  refine h.same _ fun q hq => ⟨fun hp => hu ((under_snoc hQ p r).1 ⟨q, hq, hp⟩), fun hp => hQ q hq (hp.subset (by simp))⟩

theorem cut_swept {Q : List (List Key)} {s s' : Cfg} (h : Cut Q s s') (hQ : ∀ q ∈ Q, Key.str "sweep" ∉ q) (p : List Key) :
    IsSwept s' p ↔ IsSwept s p ∧ ¬ Under Q p := by
  unfold IsSwept
  constructor
  · intro hs
    obtain ⟨x, hx⟩ := Option.isSome_iff_exists.1 hs
    obtain ⟨hu, y, hy, _⟩ := h.only _ x hx
    exact ⟨by rw [hy]; rfl, fun h => hu ((under_snoc hQ p []).2 h)⟩
  · rintro ⟨hs, hu⟩
    rw [cut_sweep h hQ hu []]; exact hs

theorem cut_plain {Q : List (List Key)} {s s' : Cfg} (h : Cut Q s s') (p : List Key) :
    IsPlain s' p ↔ IsPlain s p ∧ ¬ Under Q p := by
  unfold IsPlain
  constructor
  · rintro ⟨h1, a, ha⟩
    obtain ⟨hu, x, hx, hs⟩ := h.only _ _ ha
    rw [hs.leaf'] at hx
    exact ⟨⟨h1, a, hx⟩, hu⟩
  · rintro ⟨⟨h1, a, ha⟩, hu⟩
    obtain ⟨x, hx, hs⟩ := h.kept _ _ ha hu
    rw [hs.leaf] at hx
    exact ⟨h1, a, hx⟩

theorem lookup_some_of_keys {es : List (Key × Cfg)} {k : Key} : (es.lookup k).isSome ↔ k ∈ es.map Prod.fst := lookup_isSome_iff es k

theorem cut_paramTree {Q : List (List Key)} {s s' : Cfg} (h : Cut Q s s') (hQ : ∀ q ∈ Q, Key.str "sweep" ∉ q) (hp : ParamTree s) :
    ParamTree s' where
  wf := cut_wf h hp.wf
  distinct p hs := by
    obtain ⟨x, hx⟩ := Option.isSome_iff_exists.1 hs
    obtain ⟨_, y, hy, _⟩ := h.only p x hx
    exact hp.distinct p (by rw [hy]; rfl)
  names := cut_names h hp.names
  sweeps p v hv := by
    obtain ⟨hu, _⟩ := h.only _ v hv
    have hu' : ¬ Under Q p := fun h => hu ((under_snoc hQ p []).2 h)
    have hv' := hv
    rw [cut_sweep h hQ hu' []] at hv'
    obtain ⟨h1, a, b, rfl⟩ := hp.sweeps p v hv'
    refine ⟨?_, a, b, rfl⟩
    obtain ⟨x', hx', hs⟩ := h.kept p _ h1 hu'
    obtain ⟨es', rfl, h2, _⟩ := hs.node
    rw [readAt_snoc hx'] at hv
    simp only [List.map_cons, List.map_nil] at h2
    match es', h2, hv with
    | [], _, hv => cases hv
    | [e], h2, hv =>
      have hm := lookup_mem hv
      simp only [List.mem_singleton] at hm
      rw [hx', ← hm]
    | e :: e' :: r, h2, _ => have := h2.length_le; simp at this
  elems p es' hes e he := by
    obtain ⟨_, x, hx, hs⟩ := h.only p _ hes
    obtain ⟨es, rfl, _, h3⟩ := hs.node'
    have hlk := lookup_of_mem (cut_wf h hp.wf p true es' hes).1 (k := e.1) (v := e.2) he
    have hr : readAt s' (p ++ [e.1]) = some e.2 := by rw [readAt_snoc hes]; exact hlk
    obtain ⟨_, y, hy, hsy⟩ := h.only _ _ hr
    rw [readAt_snoc hx] at hy
    obtain ⟨es0, h0, h1⟩ := hp.elems p es hx _ (lookup_mem hy)
    simp only at h0
    subst h0
    obtain ⟨es1, h4, h5, _⟩ := hsy.node
    refine ⟨es1, h4, ?_⟩
    rw [lookup_none_iff] at h1 ⊢
    exact fun hm => h1 (h5.subset hm)

theorem cut_paramFile {Q : List (List Key)} {s s' : Cfg} (h : Cut Q s s') (hQ : ∀ q ∈ Q, Key.str "sweep" ∉ q)
    (hm : ∀ q ∈ Q, Unrelated q [.str "sweep_mode"]) (hp : ParamFile s) : ParamFile s' := by
  refine ⟨cut_paramTree h hQ hp.toParamTree, ?_, ?_, ?_⟩
  · obtain ⟨a, es, rfl⟩ := hp.top
    have hroot : ¬ Under Q [] := by
      rintro ⟨q, hq, h0⟩
      rw [List.prefix_nil] at h0
      subst h0
      exact (hm _ hq).1 List.nil_prefix
    obtain ⟨x', hx', hs⟩ := h.kept [] _ (readAt_nil _) hroot
    rw [readAt_nil] at hx'
    cases hx'
    obtain ⟨es', rfl, h2, _⟩ := hs.node
    have hmode := h.same [.str "sweep_mode"] hm
    have hl : es'.lookup (.str "sweep_mode") = some (.leaf a) := by
      have h1 : readAt (.node false es') [.str "sweep_mode"] = es'.lookup (.str "sweep_mode") := by
        have := readAt_snoc (k := .str "sweep_mode") (readAt_nil (.node false es'))
        simpa using this
      rw [← h1, hmode]
      rfl
    cases es' with
    | nil => cases hl
    | cons e r =>
      obtain ⟨k, v⟩ := e
      rw [List.map_cons, List.map_cons] at h2
      have hn := (hp.wf [] false _ (readAt_nil _)).1
      rw [List.map_cons, List.nodup_cons] at hn
      simp only at h2 hn
      rcases h2 with _ | h2 | h2
      · rename_i h2
        have := h2.subset ((lookup_isSome_iff _ _).1 (by rw [hl]; rfl))
        exact absurd this hn.1
      · simp only [List.lookup_cons, beq_self_eq_true, Option.some.injEq] at hl
        exact ⟨a, r, by rw [hl]⟩
  · intro p hne
    cases hr : readAt s' (p ++ [.str "sweep_mode"]) with
    | none => rfl
    | some x =>
      obtain ⟨_, y, hy, _⟩ := h.only _ _ hr
      rw [hp.mode p hne] at hy
      cases hy
  · cases hr : readAt s' [.str "file", .str "sweep"] with
    | none => rfl
    | some x =>
      obtain ⟨_, y, hy, _⟩ := h.only _ _ hr
      rw [hp.file] at hy
      cases hy

end GeNSIT
