import Verif.Config.FindLemmas

/-! # `update_recursively` and the `deep_*` helpers: helper lemmas -/

set_option linter.unusedSimpArgs false

namespace GeNSIT

open Spec

/-- The key order after merging: old keys first, then the new ones. -/
def mergedKeys (old new : List Key) : List Key := old ++ new.filter fun k => decide (k ∉ old)

theorem updateRecEntry_step {ov : Bool} {k : Key} {v : Cfg} {l : Bool} {ds : List (Key × Cfg)} {r : Cfg}
    (h : updateRecEntry ov (k, v) (.node l ds) = some r) :
    ∃ y, r = .node l (setEntry ds k y) ∧
      (v.isDict = true → updateRec ov v ((ds.lookup k).getD Cfg.empty) = some y ∧ l = false) ∧
      (v.isDict = false → y = if ov then v else (ds.lookup k).getD v) := by
  simp only [updateRecEntry] at h
  by_cases hv : v.isDict
  · simp only [hv, if_true] at h
    cases l with
    | true => simp [Cfg.getOrEmpty] at h
    | false =>
      simp only [Cfg.getOrEmpty] at h
      split at h
      · cases h
      · rename_i sub' hsub
        simp only [Cfg.setItem, Option.some.injEq] at h
        exact ⟨sub', h.symm, fun _ => ⟨hsub, rfl⟩, fun h => by rw [hv] at h; cases h⟩
  · simp only [hv, if_false, Bool.false_eq_true] at h
    cases ov with
    | true =>
      simp only [if_true] at h
      cases l with
      | false =>
        simp only [Cfg.setItem, Option.some.injEq] at h
        exact ⟨v, h.symm, fun h => absurd h hv, fun _ => rfl⟩
      | true =>
        simp only [Cfg.setItem] at h
        split at h
        · simp only [Option.some.injEq] at h
          exact ⟨v, h.symm, fun h => absurd h hv, fun _ => rfl⟩
        · cases h
    | false =>
      simp only [Bool.false_eq_true, if_false] at h
      cases l with
      | true => simp [Cfg.setIfAbsent] at h
      | false =>
        simp only [Cfg.setIfAbsent] at h
        cases hk : ds.lookup k with
        | none =>
          rw [hk] at h
          simp only [Option.isSome_none, Bool.false_eq_true, if_false, Option.some.injEq] at h
          exact ⟨v, h.symm, fun h => absurd h hv, fun _ => rfl⟩
        | some w =>
          rw [hk] at h
          simp only [Option.isSome_some, if_true, Option.some.injEq] at h
          refine ⟨w, ?_, fun h => absurd h hv, fun _ => rfl⟩
          rw [setEntry_same hk, h]

theorem mergedKeys_cons (old new : List Key) (k : Key) (hk : k ∉ new) :
    mergedKeys (old ++ if k ∈ old then [] else [k]) new = mergedKeys old (k :: new) := by
  unfold mergedKeys
  by_cases h : k ∈ old
  · simp [h]
  · simp only [h, if_false, List.filter_cons, not_false_eq_true, decide_true, if_true]
    rw [List.append_assoc]
    congr 1
    simp only [List.cons_append, List.nil_append]
    congr 1
    apply List.filter_congr
    intro x hx
    have : x ≠ k := fun e => hk (e ▸ hx)
    simp [this]

theorem updateRecEntries_spec {ov : Bool} (us : List (Key × Cfg)) :
    ∀ (l : Bool) (ds : List (Key × Cfg)) (r : Cfg), (us.map Prod.fst).Nodup →
      updateRecEntries ov us (.node l ds) = some r →
      ∃ rs, r = .node l rs ∧ rs.map Prod.fst = mergedKeys (ds.map Prod.fst) (us.map Prod.fst) ∧
        (∀ k, k ∉ us.map Prod.fst → rs.lookup k = ds.lookup k) ∧
        (∀ k v, (k, v) ∈ us → v.isDict = true →
          ∃ y, updateRec ov v ((ds.lookup k).getD Cfg.empty) = some y ∧ rs.lookup k = some y) ∧
        (∀ k v, (k, v) ∈ us → v.isDict = false → rs.lookup k = some (if ov then v else (ds.lookup k).getD v)) := by
  induction us with
  | nil =>
    intro l ds r _ h
    simp only [updateRecEntries, Option.some.injEq] at h
    exact ⟨ds, h.symm, by simp [mergedKeys], by simp, by simp, by simp⟩
  | cons e us ih =>
    intro l ds r hn h
    obtain ⟨k, v⟩ := e
    simp only [List.map_cons, List.nodup_cons] at hn
    simp only [updateRecEntries] at h
    cases hstep : updateRecEntry ov (k, v) (.node l ds) with
    | none => rw [hstep] at h; cases h
    | some d' =>
      rw [hstep] at h
      obtain ⟨y, rfl, hy1, hy2⟩ := updateRecEntry_step hstep
      obtain ⟨rs, rfl, hkeys, hother, hdict, hleaf⟩ := ih l (setEntry ds k y) r hn.2 h
      have hks : rs.lookup k = some y := by rw [hother k hn.1, lookup_setEntry_self]
      have hne : ∀ k' v', (k', v') ∈ us → k' ≠ k := by
        rintro k' v' hm rfl; exact hn.1 (List.mem_map.mpr ⟨_, hm, rfl⟩)
      refine ⟨rs, rfl, ?_, ?_, ?_, ?_⟩
      · rw [hkeys, setEntry_keys, mergedKeys_cons _ _ _ hn.1]; rfl
      · intro k' hk'
        simp only [List.map_cons, List.mem_cons, not_or] at hk'
        rw [hother k' hk'.2, lookup_setEntry_ne ds y hk'.1]
      · intro k' v' hm hv'
        rcases List.mem_cons.mp hm with hm | hm
        · obtain ⟨rfl, rfl⟩ := Prod.mk.inj hm
          exact ⟨y, (hy1 hv').1, hks⟩
        · obtain ⟨z, hz1, hz2⟩ := hdict k' v' hm hv'
          rw [lookup_setEntry_ne ds y (hne _ _ hm)] at hz1
          exact ⟨z, hz1, hz2⟩
      · intro k' v' hm hv'
        rcases List.mem_cons.mp hm with hm | hm
        · obtain ⟨rfl, rfl⟩ := Prod.mk.inj hm
          rw [hks, hy2 hv']
        · rw [hleaf k' v' hm hv', lookup_setEntry_ne ds y (hne _ _ hm)]

theorem updateRec_leaf {ov : Bool} {us : List (Key × Cfg)} {a : Atom} {r : Cfg}
    (h : updateRecEntries ov us (.leaf a) = some r) : us = [] ∧ r = .leaf a := by
  cases us with
  | nil => simp only [updateRecEntries, Option.some.injEq] at h; exact ⟨rfl, h.symm⟩
  | cons e us =>
    exfalso
    obtain ⟨k, v⟩ := e
    simp only [updateRecEntries, updateRecEntry] at h
    by_cases hv : v.isDict
    · simp [hv, Cfg.getOrEmpty] at h
    · cases ov <;> simp [hv, Cfg.setItem, Cfg.setIfAbsent] at h

theorem isDict_iff (v : Cfg) : v.isDict = true ↔ ∃ es, v = .node false es := by
  cases v with
  | leaf a => simp [Cfg.isDict]
  | node l es => cases l <;> simp [Cfg.isDict]

theorem updateRec_leafAt {ov : Bool} (p : List Key) : ∀ (u d r x : Cfg), WellFormed u → updateRec ov u d = some r →
    u.isDict = true → LeafAt u p x → readAt r p = some (if ov then x else (readAt d p).getD x) := by
  induction p with
  | nil =>
    rintro u d r x _ _ hu ⟨h1, h2, _⟩
    rw [readAt_nil, Option.some.injEq] at h1
    subst h1; rw [hu] at h2; cases h2
  | cons k ks ih =>
    rintro u d r x hw h hu ⟨h1, h2, h3⟩
    obtain ⟨us, rfl⟩ := (isDict_iff u).mp hu
    simp only [updateRec] at h
    have hnd := (hw [] false us rfl).1
    simp only [readAt] at h1
    cases hk : us.lookup k with
    | none => rw [hk] at h1; cases h1
    | some v =>
      rw [hk] at h1
      simp only at h1
      have hm := lookup_mem hk
      cases d with
      | leaf a =>
        obtain ⟨rfl, _⟩ := updateRec_leaf h
        simp at hm
      | node l ds =>
        obtain ⟨rs, rfl, _, hother, hdict, hleaf⟩ := updateRecEntries_spec us l ds r hnd h
        cases hv : v.isDict with
        | true =>
          obtain ⟨y, hy1, hy2⟩ := hdict k v hm hv
          have hrec := ih v ((ds.lookup k).getD Cfg.empty) y x (wf_child hw hm).2 hy1 hv ⟨h1, h2, by
            intro q hq hne
            obtain ⟨es, hes⟩ := h3 (k :: q) ((List.prefix_cons_inj k).mpr hq) (by simpa using hne)
            simp only [readAt, hk] at hes
            exact ⟨es, hes⟩⟩
          simp only [readAt, hy2]
          rw [hrec]
          cases hd : ds.lookup k with
          | none =>
            have hks : ks ≠ [] := by
              rintro rfl
              rw [readAt_nil, Option.some.injEq] at h1
              rw [h1, h2] at hv; cases hv
            cases ks with
            | nil => exact absurd rfl hks
            | cons a ks => simp [readAt, Cfg.empty]
          | some w => simp
        | false =>
          have hks : ks = [] := by
            by_contra hne
            obtain ⟨es, hes⟩ := h3 [k] (by simp [List.cons_prefix_cons]) (by simpa using Ne.symm hne)
            simp only [readAt, hk, readAt_nil, Option.some.injEq] at hes
            subst hes; simp [Cfg.isDict] at hv
          subst hks
          rw [readAt_nil, Option.some.injEq] at h1
          subst h1
          simp only [readAt, hleaf k v hm hv, readAt_nil]
          cases hd : ds.lookup k with
          | none => simp
          | some w => simp [readAt_nil]

theorem updateRec_elsewhere {ov : Bool} (p : List Key) : ∀ (u d r : Cfg), WellFormed u → updateRec ov u d = some r →
    u.isDict = true → readAt u p = none → (∀ q x, q <+: p → ¬ LeafAt u q x) → readAt r p = readAt d p := by
  induction p with
  | nil => intro u d r _ _ _ h; rw [readAt_nil] at h; cases h
  | cons k ks ih =>
    intro u d r hw h hu hn hl
    obtain ⟨us, rfl⟩ := (isDict_iff u).mp hu
    simp only [updateRec] at h
    have hnd := (hw [] false us rfl).1
    cases d with
    | leaf a =>
      obtain ⟨_, rfl⟩ := updateRec_leaf h
      rfl
    | node l ds =>
      obtain ⟨rs, rfl, _, hother, hdict, hleaf⟩ := updateRecEntries_spec us l ds r hnd h
      simp only [readAt] at hn
      cases hk : us.lookup k with
      | none =>
        simp only [readAt, hother k ((lookup_none_iff us k).mp hk)]
      | some v =>
        rw [hk] at hn
        simp only at hn
        have hm := lookup_mem hk
        cases hv : v.isDict with
        | true =>
          obtain ⟨y, hy1, hy2⟩ := hdict k v hm hv
          have hrec := ih v ((ds.lookup k).getD Cfg.empty) y (wf_child hw hm).2 hy1 hv hn (by
            rintro q x hq ⟨h1, h2, h3⟩
            refine hl (k :: q) x ((List.prefix_cons_inj k).mpr hq) ⟨by simp only [readAt, hk]; exact h1, h2, ?_⟩
            intro q' hq' hne
            cases q' with
            | nil => exact ⟨us, rfl⟩
            | cons a q' =>
              rw [List.cons_prefix_cons] at hq'
              obtain ⟨rfl, hq'⟩ := hq'
              simp only [readAt, hk]
              exact h3 q' hq' (by rintro rfl; exact hne rfl))
          simp only [readAt, hy2]
          rw [hrec]
          cases hd : ds.lookup k with
          | none =>
            cases ks with
            | nil => rw [readAt_nil] at hn; cases hn
            | cons a ks => simp [readAt, Cfg.empty]
          | some w => simp
        | false =>
          exfalso
          refine hl [k] v (by simp [List.cons_prefix_cons]) ⟨by simp [readAt, hk, readAt_nil], hv, ?_⟩
          intro q hq hne
          cases q with
          | nil => exact ⟨us, rfl⟩
          | cons a q =>
            rw [List.cons_prefix_cons] at hq
            obtain ⟨rfl, hq⟩ := hq
            have : q = [] := by simpa using hq
            subst this; exact absurd rfl hne

theorem updateRec_at {ov : Bool} (p : List Key) : ∀ (u d r : Cfg) (es : List (Key × Cfg)), WellFormed u →
    updateRec ov u d = some r → u.isDict = true → readAt u p = some (.node false es) →
    (∀ q, q <+: p → ∃ es', readAt u q = some (.node false es')) →
    ∃ r', readAt r p = some r' ∧ updateRec ov (.node false es) ((readAt d p).getD Cfg.empty) = some r' := by
  induction p with
  | nil =>
    intro u d r es _ h _ hu _
    rw [readAt_nil, Option.some.injEq] at hu
    subst hu
    exact ⟨r, readAt_nil r, by simpa [readAt_nil] using h⟩
  | cons k ks ih =>
    intro u d r es hw h hu hr hp
    obtain ⟨us, rfl⟩ := (isDict_iff u).mp hu
    simp only [updateRec] at h
    have hnd := (hw [] false us rfl).1
    simp only [readAt] at hr
    cases hk : us.lookup k with
    | none => rw [hk] at hr; cases hr
    | some v =>
      rw [hk] at hr
      simp only at hr
      have hm := lookup_mem hk
      cases d with
      | leaf a =>
        obtain ⟨rfl, _⟩ := updateRec_leaf h
        simp at hm
      | node l ds =>
        obtain ⟨rs, rfl, _, hother, hdict, hleaf⟩ := updateRecEntries_spec us l ds r hnd h
        have hv : v.isDict = true := by
          obtain ⟨es', he⟩ := hp [k] (by simp [List.cons_prefix_cons])
          simp only [readAt, hk, readAt_nil, Option.some.injEq] at he
          subst he; rfl
        obtain ⟨y, hy1, hy2⟩ := hdict k v hm hv
        obtain ⟨r', h1, h2⟩ := ih v ((ds.lookup k).getD Cfg.empty) y es (wf_child hw hm).2 hy1 hv hr (by
          intro q hq
          obtain ⟨es', he⟩ := hp (k :: q) ((List.prefix_cons_inj k).mpr hq)
          simp only [readAt, hk] at he
          exact ⟨es', he⟩)
        refine ⟨r', by simp only [readAt, hy2]; exact h1, ?_⟩
        cases hd : ds.lookup k with
        | none =>
          rw [hd] at h2
          simp only [readAt, hd, Option.getD_none]
          cases ks with
          | nil => simpa [readAt_nil] using h2
          | cons a ks => simpa [readAt, Cfg.empty] using h2
        | some w =>
          rw [hd] at h2
          simp only [readAt, hd]
          simpa using h2

mutual
theorem updateRec_total (ov : Bool) : ∀ (u d : Cfg), WellFormed u →
    (∀ p e es, (∀ q, q <+: p → ∃ es', readAt u q = some (.node false es')) → readAt u p = some (.node false (e :: es)) →
      ∀ x, readAt d p = some x → x.isDict = true) → ∃ r, updateRec ov u d = some r
  | .leaf _, d, _, _ => ⟨d, rfl⟩
  | .node true _, d, _, _ => ⟨d, rfl⟩
  | .node false us, d, hw, h => by
    simp only [updateRec]
    cases us with
    | nil => exact ⟨d, rfl⟩
    | cons e us =>
      obtain ⟨ds, rfl⟩ := (isDict_iff d).mp (h [] e us (by
        intro q hq; have : q = [] := by simpa using hq
        subst this; exact ⟨_, rfl⟩) rfl d (readAt_nil d))
      refine updateRecEntries_total ov (e :: us) ds (hw [] false _ rfl).1 (fun e' he' => (wf_child hw he').2) ?_
      intro e' he' hd p e1 es1 hpre hp x hx
      have hlk := (wf_child hw he').1
      refine h (e'.1 :: p) e1 es1 ?_ (by simp only [readAt]; rw [hlk]; exact hp) x ?_
      · intro q hq
        cases q with
        | nil => exact ⟨_, rfl⟩
        | cons a q =>
          rw [List.cons_prefix_cons] at hq
          obtain ⟨rfl, hq⟩ := hq
          obtain ⟨es', he⟩ := hpre q hq
          exact ⟨es', by simp only [readAt]; rw [hlk]; exact he⟩
      · cases hd' : ds.lookup e'.1 with
        | none =>
          rw [hd'] at hx
          have := hd hd'
          cases p with
          | nil => simp only [readAt_nil, Option.getD_none, Cfg.empty, Option.some.injEq] at hx; exact absurd hd' this
          | cons a p => simp [readAt, Cfg.empty] at hx
        | some w => rw [hd'] at hx; simp only [readAt, hd']; simpa using hx
theorem updateRecEntries_total (ov : Bool) : ∀ (us ds : List (Key × Cfg)), (us.map Prod.fst).Nodup →
    (∀ e ∈ us, WellFormed e.2) →
    (∀ e ∈ us, (ds.lookup e.1 = none → ds.lookup e.1 ≠ none) → ∀ p e1 es1, (∀ q, q <+: p → ∃ es', readAt e.2 q = some (.node false es')) →
      readAt e.2 p = some (.node false (e1 :: es1)) →
      ∀ x, readAt ((ds.lookup e.1).getD Cfg.empty) p = some x → x.isDict = true) →
    ∃ r, updateRecEntries ov us (.node false ds) = some r
  | [], ds, _, _, _ => ⟨_, rfl⟩
  | e :: us, ds, hn, hw, h => by
    simp only [List.map_cons, List.nodup_cons] at hn
    have hstep : ∃ r, updateRecEntry ov e (.node false ds) = some r :=
      updateRecEntry_total ov e ds (hw e (by simp)) (by
        intro p e1 es1 hpre hp x hx
        cases hd : ds.lookup e.1 with
        | none =>
          rw [hd] at hx
          cases p with
          | nil => simp only [readAt_nil, Option.getD_none, Option.some.injEq] at hx; subst hx; rfl
          | cons a p => simp [readAt, Cfg.empty] at hx
        | some w => exact h e (by simp) (by rw [hd]; simp) p e1 es1 hpre hp x hx)
    obtain ⟨r, hr⟩ := hstep
    obtain ⟨k, v⟩ := e
    obtain ⟨y, rfl, _, _⟩ := updateRecEntry_step hr
    simp only [updateRecEntries, hr]
    refine updateRecEntries_total ov us _ hn.2 (fun e' he' => hw e' (by simp [he'])) ?_
    intro e' he'
    have hne : e'.1 ≠ k := by
      intro he; exact hn.1 (he ▸ List.mem_map.mpr ⟨e', he', rfl⟩)
    rw [lookup_setEntry_ne ds y hne]
    exact h e' (by simp [he'])
theorem updateRecEntry_total (ov : Bool) : ∀ (e : Key × Cfg) (ds : List (Key × Cfg)), WellFormed e.2 →
    (∀ p e1 es1, (∀ q, q <+: p → ∃ es', readAt e.2 q = some (.node false es')) →
      readAt e.2 p = some (.node false (e1 :: es1)) →
      ∀ x, readAt ((ds.lookup e.1).getD Cfg.empty) p = some x → x.isDict = true) →
    ∃ r, updateRecEntry ov e (.node false ds) = some r
  | (k, v), ds, hw, h => by
    simp only [updateRecEntry]
    cases hv : v.isDict with
    | true =>
      obtain ⟨r, hr⟩ := updateRec_total ov v ((ds.lookup k).getD Cfg.empty) hw h
      simp only [Cfg.getOrEmpty, hr, Cfg.setItem, if_true]
      exact ⟨_, rfl⟩
    | false =>
      cases ov with
      | true => simp only [Bool.false_eq_true, if_false, if_true, Cfg.setItem]; exact ⟨_, rfl⟩
      | false =>
        simp only [Bool.false_eq_true, if_false, Cfg.setIfAbsent]
        split <;> exact ⟨_, rfl⟩
end

end GeNSIT
