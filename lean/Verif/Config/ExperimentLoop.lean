import Verif.Config.ExperimentLemmas

/-!
# The loop over an experiment schema
-/

namespace GeNSIT.Spec

open GeNSIT

/-- The sections that an experiment schema excludes: `q > exclude` with a true value. -/
def removedPaths (X : List (List Key × Cfg)) : List (List Key) :=
  (X.filter fun e => !e.1.contains (.str "dtype") && (e.1.getLast? == some (.str "exclude") && e.2.truthy)).map fun e => e.1.dropLast

/-- The schema entries that an experiment schema overrides. -/
def overrides (X : List (List Key × Cfg)) : List (List Key × Cfg) :=
  X.filter fun e => !e.1.contains (.str "dtype") && !(e.1.getLast? == some (.str "exclude") && e.2.truthy)

/-- An experiment schema of the shipped shape: excluded sections are named and are neither `sweep_mode` nor parts of a sweep;
overrides are reached through dictionaries and do not contain excluded sections. -/
structure ExpSchema (X : List (List Key × Cfg)) : Prop where
  removed : ∀ q ∈ removedPaths X, EndsInName q ∧ .str "sweep" ∉ q ∧ q.head? ≠ some (.str "sweep_mode") ∧ ∀ k ∈ q, toIndex k = k
  over : ∀ e ∈ overrides X, e.1 ≠ [] ∧ (∀ k ∈ e.1, ∃ n, k = .str n) ∧ Clean e.2
  apart : ∀ q ∈ removedPaths X, ∀ e ∈ overrides X, ¬ e.1 <+: q

end GeNSIT.Spec

namespace GeNSIT

open Spec

/-! ### One override -/

theorem containsKey_name {s : Cfg} (hs : Clean s) {n : String} (h : s.getItem (.str n) = none) (v : Cfg) :
    s.containsKey (.str n) = some true → s.setItem (.str n) v = none := by
  intro hc
  cases s with
  | leaf a => rfl
  | node l es =>
    simp only [Cfg.getItem] at h
    cases l with
    | false => simp [Cfg.containsKey, h] at hc
    | true => simp [Cfg.setItem, h]

theorem setItem_name {s s' v : Cfg} (hs : Clean s) {n : String} (h : s.setItem (.str n) v = some s') :
    ∃ es, s = .node false es ∧ s' = .node false (setEntry es (.str n) v) := by
  cases s with
  | leaf a => cases h
  | node l es =>
    cases l with
    | false => simp only [Cfg.setItem, Option.some.injEq] at h; exact ⟨es, rfl, h.symm⟩
    | true => simp [Cfg.setItem, list_no_str hs.wf] at h

/-- Overriding at a path of names at which something is stored. -/
theorem pathModify_clean (v : Cfg) (hv : Clean v) (p : List Key) : ∀ (s : Cfg), Clean s → p ≠ [] → (∀ k ∈ p, ∃ n, k = .str n) →
    (readAt s p).isSome → ∃ s', pathModify s v p = some (s', true) ∧ Clean s' ∧ readAt s' p = some v ∧
      (∀ q, Unrelated p q → readAt s' q = readAt s q) ∧ (∀ q, q <+: p → q ≠ p → (readAt s' q).isSome) := by
  induction p with
  | nil => intro s _ h; exact absurd rfl h
  | cons k ks ih =>
    intro s hs _ hn hr
    obtain ⟨n, rfl⟩ := hn k (by simp)
    cases s with
    | leaf a => simp [readAt] at hr
    | node l es =>
      simp only [readAt] at hr
      cases hk : es.lookup (.str n) with
      | none => rw [hk] at hr; cases hr
      | some sub =>
        rw [hk] at hr
        have hl : l = false := by
          cases l with
          | false => rfl
          | true => rw [list_no_str hs.wf] at hk; cases hk
        subst hl
        cases ks with
        | nil =>
          refine ⟨.node false (setEntry es (.str n) v), by simp [pathModify, Cfg.containsKey, Cfg.setItem, hk],
            clean_setEntry hs _ hv (by rw [hk]; rfl), ?_, fun q hq => ?_, fun q hq hne => ?_⟩
          · simp only [readAt, lookup_setEntry_self]
          · cases q with
            | nil => exact absurd List.nil_prefix hq.2
            | cons k2 q =>
              have hne : k2 ≠ .str n := by rintro rfl; exact hq.1 (by simp)
              simp only [readAt, lookup_setEntry_ne es v hne]
          · cases q with
            | nil => rfl
            | cons k2 q =>
              rw [List.cons_prefix_cons, List.prefix_nil] at hq
              exact absurd (by rw [hq.1, hq.2]) hne
        | cons k' ks =>
          obtain ⟨sub', h1, h2, h3, h4, h5⟩ := ih sub (clean_child hs hk) (by simp) (fun a ha => hn a (by simp [List.mem_cons.1 ha])) hr
          refine ⟨.node false (setEntry es (.str n) sub'), by simp [pathModify, Cfg.containsKey, Cfg.setItem, Cfg.getItem, hk, h1],
            clean_setEntry hs _ h2 (by rw [hk]; rfl), ?_, fun q hq => ?_, fun q hq hne => ?_⟩
          · rw [readAt, lookup_setEntry_self]; exact h3
          · cases q with
            | nil => exact absurd List.nil_prefix hq.2
            | cons k2 q =>
              by_cases hne : k2 = .str n
              · subst hne
                simp only [readAt, lookup_setEntry_self, hk]
                exact h4 q ⟨fun h => hq.1 ((List.prefix_cons_inj _).2 h), fun h => hq.2 ((List.prefix_cons_inj _).2 h)⟩
              · simp only [readAt, lookup_setEntry_ne es sub' hne]
          · cases q with
            | nil => rfl
            | cons k2 q =>
              rw [List.cons_prefix_cons] at hq
              obtain ⟨rfl, hq⟩ := hq
              rw [readAt, lookup_setEntry_self]
              exact h5 q hq (fun h => hne (by rw [h]))

/-- Overriding at a path of names at which nothing is stored changes nothing, if it does not raise. -/
theorem pathModify_absent (v : Cfg) (p : List Key) : ∀ (s s' : Cfg) (b : Bool), Clean s → (∀ k ∈ p, ∃ n, k = .str n) →
    readAt s p = none → pathModify s v p = some (s', b) → s' = s := by
  induction p with
  | nil => intro s s' b _ _ h; rw [readAt_nil] at h; cases h
  | cons k ks ih =>
    intro s s' b hs hn hr hm
    obtain ⟨n, rfl⟩ := hn k (by simp)
    cases ks with
    | nil =>
      simp only [pathModify] at hm
      split at hm
      · cases hm
      · cases hm; rfl
      · rename_i hc
        have hg : s.getItem (.str n) = none := by
          cases s with
          | leaf a => cases a <;> rfl
          | node l es =>
            simp only [readAt] at hr
            simp only [Cfg.getItem]
            cases hk : es.lookup (.str n) with
            | none => rfl
            | some x => rw [hk] at hr; simp at hr
        rw [containsKey_name hs hg v hc] at hm
        cases hm
    | cons k' ks =>
      simp only [pathModify] at hm
      split at hm
      · cases hm
      · cases hm; rfl
      · split at hm
        · cases hm
        · rename_i sub hg
          split at hm
          · cases hm
          · rename_i sub' b' hsub
            cases s with
            | leaf a => cases a <;> cases hg
            | node l es =>
              simp only [Cfg.getItem] at hg
              have hr' : readAt sub (k' :: ks) = none := by simpa [readAt, hg] using hr
              have := ih sub sub' b' (clean_child hs hg) (fun a ha => hn a (by simp [List.mem_cons.1 ha])) hr' hsub
              subst this
              cases hsi : (Cfg.node l es).setItem (.str n) sub' with
              | none => rw [hsi] at hm; cases hm
              | some s'' =>
                rw [hsi] at hm
                cases hm
                obtain ⟨es', h1, h2⟩ := setItem_name hs hsi
                cases h1
                rw [h2, setEntry_same hg]

theorem names_endsInName {p : List Key} (hp : p ≠ []) (hn : ∀ k ∈ p, ∃ n, k = .str n) : EndsInName p := by
  obtain ⟨n, hl⟩ := hn (p.getLast hp) (List.getLast_mem hp)
  exact ⟨p.dropLast, n, by rw [← hl, List.dropLast_concat_getLast]⟩

/-! ### The loop -/

/-- What an entry does. -/
theorem adjustEntry_cases {e : List Key × Cfg} {t t' : Trees} (h : adjustEntry e t = .ok t') :
    (e.1.contains (.str "dtype") = true ∧ t' = t) ∨
    (e.1.contains (.str "dtype") = false ∧ excludes e = true ∧ ∃ b1 b2 b3, pathDelete t.settings e.1.dropLast = some (t'.settings, b1) ∧
      pathDelete t.schema e.1.dropLast = some (t'.schema, b2) ∧ pathDelete t.params e.1.dropLast = some (t'.params, b3)) ∨
    (e.1.contains (.str "dtype") = false ∧ excludes e = false ∧ pathModify t.schema e.2 e.1 = some (t'.schema, true) ∧
      (pathGet t'.schema e.1).isSome ∧ t'.settings = t.settings ∧ t'.params = t.params) := by
  unfold adjustEntry at h
  split at h
  · rename_i hd
    cases h; exact Or.inl ⟨hd, rfl⟩
  · rename_i hd
    have hd : e.1.contains (.str "dtype") = false := by simpa using hd
    split at h
    · rename_i hx
      split at h
      · cases h
      · rename_i s' b1 h1
        split at h
        · cases h
        · rename_i c' b2 h2
          split at h
          · cases h
          · rename_i p' b3 h3
            cases h
            exact Or.inr (Or.inl ⟨hd, hx, b1, b2, b3, h1, h2, h3⟩)
    · rename_i hx
      split at h
      · cases h
      · cases h
      · rename_i c' h1
        split at h
        · rename_i hg
          cases h
          exact Or.inr (Or.inr ⟨hd, by simpa using hx, h1, hg, rfl, rfl⟩)
        · cases h

theorem removed_cons (e : List Key × Cfg) (X : List (List Key × Cfg)) :
    removedPaths (e :: X) = (if e.1.contains (.str "dtype") = false ∧ excludes e = true then [e.1.dropLast] else []) ++ removedPaths X := by
  unfold removedPaths excludes
  rw [List.filter_cons]
  cases h1 : e.1.contains (.str "dtype") <;>
    cases h2 : (e.1.getLast? == some (.str "exclude") && e.2.truthy) <;>
    simp only [Bool.not_true, Bool.not_false, Bool.and_true, Bool.and_false, and_true, and_self, and_false, if_true, if_false,
      reduceCtorEq, List.map_cons, List.nil_append, List.cons_append]

theorem overrides_cons (e : List Key × Cfg) (X : List (List Key × Cfg)) :
    overrides (e :: X) = (if e.1.contains (.str "dtype") = false ∧ excludes e = false then [e] else []) ++ overrides X := by
  unfold overrides excludes
  rw [List.filter_cons]
  cases h1 : e.1.contains (.str "dtype") <;>
    cases h2 : (e.1.getLast? == some (.str "exclude") && e.2.truthy) <;>
    simp only [Bool.not_true, Bool.not_false, Bool.and_true, Bool.and_false, and_true, and_self, and_false, if_true, if_false,
      reduceCtorEq, List.nil_append, List.cons_append]

theorem Spec.ExpSchema.tail {e : List Key × Cfg} {X : List (List Key × Cfg)} (h : ExpSchema (e :: X)) : ExpSchema X where
  removed q hq := h.removed q (by rw [removed_cons]; exact List.mem_append_right _ hq)
  over x hx := h.over x (by rw [overrides_cons]; exact List.mem_append_right _ hx)
  apart q hq x hx := h.apart q (by rw [removed_cons]; exact List.mem_append_right _ hq) x
    (by rw [overrides_cons]; exact List.mem_append_right _ hx)

/-- The state of the schema while the loop runs over `X`. -/
structure SchemaDone (X : List (List Key × Cfg)) (c c' : Cfg) : Prop where
  clean : Clean c'
  gone : ∀ p, Under (removedPaths X) p → readAt c' p = none
  same : ∀ p, (∀ q ∈ removedPaths X, Unrelated q p) → (∀ e ∈ overrides X, Unrelated e.1 p) → readAt c' p = readAt c p
  stays : ∀ p, readAt c p = none → (∀ e ∈ overrides X, ¬ e.1 <+: p) → readAt c' p = none
  set : ∀ e ∈ overrides X, (∀ q ∈ removedPaths X, ¬ q <+: e.1) → (∀ x ∈ overrides X, x = e ∨ Unrelated x.1 e.1) →
    readAt c' e.1 = some e.2

theorem unrelated_of {p q : List Key} (h1 : ¬ p <+: q) (h2 : ¬ q <+: p) : Unrelated p q := ⟨h1, h2⟩

theorem cut_none {Q : List (List Key)} {s s' : Cfg} (h : Cut Q s s') {p : List Key} (hp : readAt s p = none) : readAt s' p = none := by
  cases hr : readAt s' p with
  | none => rfl
  | some x => obtain ⟨_, y, hy, _⟩ := h.only p x hr; rw [hp] at hy; cases hy

theorem cut_under {Q : List (List Key)} {s s' : Cfg} (h : Cut Q s s') {p : List Key} (hp : Under Q p) : readAt s' p = none := by
  cases hr : readAt s' p with
  | none => rfl
  | some x => exact absurd hp (h.only p x hr).1

theorem adjust_effect (X : List (List Key × Cfg)) : ∀ (t t' : Trees), ExpSchema X → Clean t.settings → Clean t.schema →
    WellFormed t.params → adjust X t = .ok t' → Cut (removedPaths X) t.settings t'.settings ∧
      Cut (removedPaths X) t.params t'.params ∧ SchemaDone X t.schema t'.schema := by
  induction X with
  | nil =>
    intro t t' _ hs hc hw h
    cases h
    refine ⟨Cut.nil _, Cut.nil _, hc, ?_, fun _ _ _ => rfl, fun _ h _ => h, fun e he => by cases he⟩
    rintro p ⟨q, hq, _⟩
    cases hq
  | cons e X ih =>
    intro t t' hX hs hc hw h
    rw [adjust] at h
    split at h
    · cases h
    · rename_i t1 h1
      rw [removed_cons]
      rcases adjustEntry_cases h1 with ⟨hd, rfl⟩ | ⟨hd, hx, b1, b2, b3, d1, d2, d3⟩ | ⟨hd, hx, m1, m2, m3, m4⟩
      · obtain ⟨i1, i2, i3⟩ := ih t1 t' hX.tail hs hc hw h
        have e1 : (if e.1.contains (.str "dtype") = false ∧ excludes e = true then [e.1.dropLast] else []) = [] := if_neg (fun h => by rw [hd] at h; cases h.1)
        have e2 : (if e.1.contains (.str "dtype") = false ∧ excludes e = false then [e] else []) = [] := if_neg (fun h => by rw [hd] at h; cases h.1)
        rw [e1]
        refine ⟨i1, i2, ⟨i3.clean, ?_, ?_, ?_, ?_⟩⟩
        · rw [removed_cons, e1]; exact i3.gone
        · rw [removed_cons, e1, overrides_cons, e2]; exact i3.same
        · rw [overrides_cons, e2]; exact i3.stays
        · rw [removed_cons, e1, overrides_cons, e2]; exact i3.set
      · have e1 : (if e.1.contains (.str "dtype") = false ∧ excludes e = true then [e.1.dropLast] else []) = [e.1.dropLast] := by
          rw [if_pos ⟨hd, hx⟩]
        have e2 : (if e.1.contains (.str "dtype") = false ∧ excludes e = false then [e] else []) = [] := by simp [hx]
        have hq : e.1.dropLast ∈ removedPaths (e :: X) := by rw [removed_cons, e1]; simp
        obtain ⟨q1, q2, q3, q4⟩ := hX.removed _ hq
        have cut : ∀ {s s' : Cfg} {b : Bool}, WellFormed s → pathDelete s e.1.dropLast = some (s', b) → Cut [e.1.dropLast] s s' := by
          intro s s' b hw hdel
          rcases pathDelete_cut _ s hw q1 q4 with h | ⟨s2, b', h, hc⟩
          · rw [h] at hdel; cases hdel
          · rw [h] at hdel; cases hdel; exact hc
        have c1 := cut hs.wf d1
        have c2 := cut hc.wf d2
        have c3 := cut hw d3
        obtain ⟨i1, i2, i3⟩ := ih t1 t' hX.tail (cut_clean c1 hs) (cut_clean c2 hc) (cut_wf c3 hw) h
        rw [e1]
        refine ⟨c1.trans i1, c3.trans i2, ⟨i3.clean, ?_, ?_, ?_, ?_⟩⟩
        · rw [removed_cons, e1]
          intro p hp
          rcases under_append.1 hp with hp | hp
          · refine i3.stays p (cut_under c2 hp) fun x hx hxp => ?_
            have hxo : x ∈ overrides (e :: X) := by rw [overrides_cons]; exact List.mem_append_right _ hx
            have hqp := under_single.1 hp
            rcases List.prefix_or_prefix_of_prefix hxp hqp with h | h
            · exact hX.apart _ hq x hxo h
            · -- the override lies under the excluded section: the loop would have raised
              have hnone : ∀ (Y : List (List Key × Cfg)) (u u' : Trees), ExpSchema Y → Clean u.settings → Clean u.schema →
                  WellFormed u.params → x ∈ overrides Y → (∀ r, e.1.dropLast <+: r → readAt u.schema r = none) →
                  (∀ y ∈ overrides Y, ¬ y.1 <+: e.1.dropLast) → adjust Y u = .ok u' → False := by
                intro Y
                induction Y with
                | nil => intro u u' _ _ _ _ hm; cases hm
                | cons y Y ihY =>
                  intro u u' hY us uc uw hm hgone hap hadj
                  rw [adjust] at hadj
                  split at hadj
                  · cases hadj
                  · rename_i u1 hu1
                    rw [overrides_cons] at hm hap
                    rcases adjustEntry_cases hu1 with ⟨hd', rfl⟩ | ⟨hd', hx', b1, b2, b3, d1', d2', d3'⟩ | ⟨hd', hx', m1, m2, m3, m4⟩
                    · exact ihY u1 u' hY.tail us uc uw (by rw [if_neg (fun h => by rw [hd'] at h; cases h.1), List.nil_append] at hm; exact hm) hgone
                        (fun y hy => hap y (List.mem_append_right _ hy)) hadj
                    · have hq' : y.1.dropLast ∈ removedPaths (y :: Y) := by rw [removed_cons, if_pos ⟨hd', hx'⟩]; simp
                      obtain ⟨q1', _, _, q4'⟩ := hY.removed _ hq'
                      have cut' : ∀ {s s' : Cfg} {b : Bool}, WellFormed s → pathDelete s y.1.dropLast = some (s', b) →
                          Cut [y.1.dropLast] s s' := by
                        intro s s' b hw hdel
                        rcases pathDelete_cut _ s hw q1' q4' with h | ⟨s2, b', h, hc⟩
                        · rw [h] at hdel; cases hdel
                        · rw [h] at hdel; cases hdel; exact hc
                      exact ihY u1 u' hY.tail (cut_clean (cut' us.wf d1') us) (cut_clean (cut' uc.wf d2') uc) (cut_wf (cut' uw d3') uw)
                        (by simpa [hx'] using hm) (fun r hr => cut_none (cut' uc.wf d2') (hgone r hr))
                        (fun y hy => hap y (List.mem_append_right _ hy)) hadj
                    · have hyo : y ∈ overrides (y :: Y) := by rw [overrides_cons, if_pos ⟨hd', hx'⟩]; simp
                      obtain ⟨y1, y2, y3⟩ := hY.over y hyo
                      have hsome : (readAt u.schema y.1).isSome := by
                        cases hr : readAt u.schema y.1 with
                        | some _ => rfl
                        | none =>
                          exfalso
                          have := pathModify_absent y.2 y.1 u.schema u1.schema true uc y2 hr m1
                          rw [this, pathGet_clean uc (names_endsInName y1 y2), hr] at m2
                          cases m2
                      obtain ⟨s', g1, g2, g3, g4, g5⟩ := pathModify_clean y.2 y3 y.1 u.schema uc y1 y2 hsome
                      rw [m1] at g1
                      cases g1
                      have hnp : ¬ e.1.dropLast <+: y.1 := by
                        intro hp
                        rw [hgone _ hp] at hsome; cases hsome
                      have hyq := hap y (by rw [if_pos ⟨hd', hx'⟩]; simp)
                      have hu : Unrelated y.1 e.1.dropLast := unrelated_of hyq hnp
                      refine ihY u1 u' hY.tail (by rw [m3]; exact us) g2 (by rw [m4]; exact uw) ?_ ?_
                        (fun y hy => hap y (List.mem_append_right _ hy)) hadj
                      · rcases List.mem_append.1 hm with hm | hm
                        · rw [if_pos ⟨hd', hx'⟩, List.mem_singleton] at hm
                          subst hm
                          exact absurd h hnp
                        · exact hm
                      · rintro r ⟨r', rfl⟩
                        rw [g4 _ (hu.append r')]
                        exact hgone _ (List.prefix_append _ _)
              exact hnone X t1 t' hX.tail (cut_clean c1 hs) (cut_clean c2 hc) (cut_wf c3 hw) hx
                (fun r hr => cut_under c2 (under_single.2 hr))
                (fun y hy => hX.apart _ hq y (by rw [overrides_cons]; exact List.mem_append_right _ hy)) (by assumption)
          · exact i3.gone p hp
        · rw [removed_cons, e1, overrides_cons, e2]
          intro p hp ho
          rw [i3.same p (fun q hq => hp q (List.mem_append_right _ hq)) ho]
          exact c2.same p fun q hq => hp q (List.mem_append_left _ hq)
        · rw [overrides_cons, e2]
          intro p hp ho
          exact i3.stays p (cut_none c2 hp) ho
        · rw [removed_cons, e1, overrides_cons, e2]
          intro x hx hr hu
          exact i3.set x hx (fun q hq => hr q (List.mem_append_right _ hq)) hu
      · have e1 : (if e.1.contains (.str "dtype") = false ∧ excludes e = true then [e.1.dropLast] else []) = [] := by simp [hx]
        have e2 : (if e.1.contains (.str "dtype") = false ∧ excludes e = false then [e] else []) = [e] := by rw [if_pos ⟨hd, hx⟩]
        have hyo : e ∈ overrides (e :: X) := by rw [overrides_cons, e2]; simp
        obtain ⟨y1, y2, y3⟩ := hX.over e hyo
        have hsome : (readAt t.schema e.1).isSome := by
          cases hr : readAt t.schema e.1 with
          | some _ => rfl
          | none =>
            exfalso
            have := pathModify_absent e.2 e.1 t.schema t1.schema true hc y2 hr m1
            rw [this, pathGet_clean hc (names_endsInName y1 y2), hr] at m2
            cases m2
        obtain ⟨s', g1, g2, g3, g4, g5⟩ := pathModify_clean e.2 y3 e.1 t.schema hc y1 y2 hsome
        rw [m1] at g1
        cases g1
        obtain ⟨i1, i2, i3⟩ := ih t1 t' hX.tail (by rw [m3]; exact hs) g2 (by rw [m4]; exact hw) h
        rw [e1, ← m3, ← m4]
        refine ⟨i1, i2, ⟨i3.clean, ?_, ?_, ?_, ?_⟩⟩
        · rw [removed_cons, e1]; exact i3.gone
        · rw [removed_cons, e1, overrides_cons, e2]
          intro p hp ho
          rw [i3.same p hp (fun x hx => ho x (List.mem_append_right _ hx))]
          exact g4 p (ho e (by simp))
        · rw [overrides_cons, e2]
          intro p hp ho
          refine i3.stays p ?_ (fun x hx => ho x (List.mem_append_right _ hx))
          have hnp : ¬ p <+: e.1 := by
            rintro ⟨r, hr⟩
            rw [← hr, readAt_prefix_none hp] at hsome
            cases hsome
          rw [g4 p (unrelated_of (ho e (by simp)) hnp)]
          exact hp
        · rw [removed_cons, e1, overrides_cons, e2]
          intro x hx hr hu
          by_cases hxX : x ∈ overrides X
          · exact i3.set x hxX hr (fun y hy => hu y (List.mem_append_right _ hy))
          · rcases List.mem_append.1 hx with hx | hx
            · rw [List.mem_singleton] at hx
              subst hx
              rw [i3.same x.1 ?_ ?_, g3]
              · intro q hq
                refine unrelated_of (hr q hq) fun h => hX.apart q (by rw [removed_cons]; exact List.mem_append_right _ hq) x hyo h
              · intro y hy
                rcases hu y (List.mem_append_right _ hy) with rfl | h
                · exact absurd hy hxX
                · exact h
            · exact absurd hx hxX

end GeNSIT
