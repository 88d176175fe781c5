import Verif.Discover.Model
import Verif.Discover.Spec
import Verif.Config.FindLemmas

/-! # Lemmas on the discovery of sweeps -/

namespace GeNSIT

open Spec

/-! ### The walk -/

theorem reaches_leaf {a : Atom} {q : List Key} {x : Cfg} : Reaches (.leaf a) q x ↔ q = [] ∧ x = .leaf a := by
  constructor
  · intro h; cases h; exact ⟨rfl, rfl⟩
  · rintro ⟨rfl, rfl⟩; exact Reaches.here rfl

theorem reaches_list {es : List (Key × Cfg)} {q : List Key} {x : Cfg} :
    Reaches (.node true es) q x ↔ q = [] ∧ x = .node true es := by
  constructor
  · intro h; cases h; exact ⟨rfl, rfl⟩
  · rintro ⟨rfl, rfl⟩; exact Reaches.here rfl

/-- One item of a dictionary leads to `x` by `q`. -/
def ItemReaches (e : Key × Cfg) (q : List Key) (x : Cfg) : Prop := Reaches (.node false [e]) q x

theorem reaches_dict {es : List (Key × Cfg)} {q : List Key} {x : Cfg} :
    Reaches (.node false es) q x ↔ ∃ e ∈ es, ItemReaches e q x := by
  constructor
  · intro h
    cases h with
    | here h => simp [Cfg.isDict] at h
    | entry hm hl hr => exact ⟨_, hm, Reaches.entry (List.mem_singleton.mpr rfl) hl hr⟩
    | element hm hi hr => exact ⟨_, hm, Reaches.element (List.mem_singleton.mpr rfl) hi hr⟩
  · rintro ⟨e, he, h⟩
    cases h with
    | here h => simp [Cfg.isDict] at h
    | entry hm hl hr =>
      rw [List.mem_singleton] at hm; subst hm
      exact Reaches.entry he hl hr
    | element hm hi hr =>
      rw [List.mem_singleton] at hm; subst hm
      exact Reaches.element he hi hr

theorem item_leaf {k : Key} {a : Atom} {q : List Key} {x : Cfg} :
    ItemReaches (k, .leaf a) q x ↔ q = [k] ∧ x = .leaf a := by
  constructor
  · intro h
    cases h with
    | here h => simp [Cfg.isDict] at h
    | entry hm _ hr =>
      rw [List.mem_singleton, Prod.mk.injEq] at hm
      obtain ⟨rfl, rfl⟩ := hm
      obtain ⟨rfl, rfl⟩ := reaches_leaf.mp hr
      exact ⟨rfl, rfl⟩
    | element hm _ _ => simp at hm
  · rintro ⟨rfl, rfl⟩
    exact Reaches.entry (List.mem_singleton.mpr rfl) (by simp) (Reaches.here rfl)

theorem item_dict {k : Key} {es : List (Key × Cfg)} {q : List Key} {x : Cfg} :
    ItemReaches (k, .node false es) q x ↔ ∃ q', q = k :: q' ∧ Reaches (.node false es) q' x := by
  constructor
  · intro h
    cases h with
    | here h => simp [Cfg.isDict] at h
    | entry hm _ hr =>
      rw [List.mem_singleton, Prod.mk.injEq] at hm
      obtain ⟨rfl, rfl⟩ := hm
      exact ⟨_, rfl, hr⟩
    | element hm _ _ => simp at hm
  · rintro ⟨q', rfl, h⟩
    exact Reaches.entry (List.mem_singleton.mpr rfl) (by simp) h

theorem item_list {k : Key} {es : List (Key × Cfg)} {q : List Key} {x : Cfg} :
    ItemReaches (k, .node true es) q x ↔ ∃ q', q = k :: q' ∧ ∃ e ∈ es, Reaches e.2 q' x := by
  constructor
  · intro h
    cases h with
    | here h => simp [Cfg.isDict] at h
    | entry hm hl hr =>
      rw [List.mem_singleton, Prod.mk.injEq] at hm
      obtain ⟨rfl, rfl⟩ := hm
      exact absurd rfl (hl es)
    | element hm hi hr =>
      rw [List.mem_singleton, Prod.mk.injEq] at hm
      obtain ⟨rfl, hm⟩ := hm
      cases hm
      exact ⟨_, rfl, _, hi, hr⟩
  · rintro ⟨q', rfl, e, he, h⟩
    exact Reaches.element (List.mem_singleton.mpr rfl) he h

mutual
theorem mem_deepWalk : ∀ (pre : List Key) (c : Cfg) (p : List Key) (x : Cfg),
    (p, x) ∈ deepWalk pre c ↔ ∃ q, p = pre ++ q ∧ Reaches c q x
  | pre, .leaf a, p, x => by
    simp only [deepWalk, List.mem_singleton, Prod.mk.injEq, reaches_leaf]
    constructor
    · rintro ⟨rfl, rfl⟩; exact ⟨[], by simp⟩
    · rintro ⟨q, rfl, rfl, rfl⟩; simp
  | pre, .node true es, p, x => by
    simp only [deepWalk, List.mem_singleton, Prod.mk.injEq, reaches_list]
    constructor
    · rintro ⟨rfl, rfl⟩; exact ⟨[], by simp⟩
    · rintro ⟨q, rfl, rfl, rfl⟩; simp
  | pre, .node false es, p, x => by
    simp only [deepWalk]
    rw [mem_deepWalkItems pre es p x]
    simp only [reaches_dict]

theorem mem_deepWalkItems : ∀ (pre : List Key) (es : List (Key × Cfg)) (p : List Key) (x : Cfg),
    (p, x) ∈ deepWalkItems pre es ↔ ∃ q, p = pre ++ q ∧ ∃ e ∈ es, ItemReaches e q x
  | pre, [], p, x => by simp [deepWalkItems]
  | pre, e :: rest, p, x => by
    simp only [deepWalkItems, List.mem_append]
    rw [mem_deepWalkItem pre e p x, mem_deepWalkItems pre rest p x]
    simp only [List.mem_cons, exists_eq_or_imp]
    constructor
    · rintro (⟨q, h1, h2⟩ | ⟨q, h1, h2⟩)
      · exact ⟨q, h1, Or.inl h2⟩
      · exact ⟨q, h1, Or.inr h2⟩
    · rintro ⟨q, h1, h2 | h2⟩
      · exact Or.inl ⟨q, h1, h2⟩
      · exact Or.inr ⟨q, h1, h2⟩

theorem mem_deepWalkItem : ∀ (pre : List Key) (e : Key × Cfg) (p : List Key) (x : Cfg),
    (p, x) ∈ deepWalkItem pre e ↔ ∃ q, p = pre ++ q ∧ ItemReaches e q x
  | pre, (k, .leaf a), p, x => by
    simp only [deepWalkItem, List.mem_singleton, Prod.mk.injEq, item_leaf]
    constructor
    · rintro ⟨rfl, rfl⟩; exact ⟨[k], rfl, rfl, rfl⟩
    · rintro ⟨q, rfl, rfl, rfl⟩; exact ⟨rfl, rfl⟩
  | pre, (k, .node true es), p, x => by
    simp only [deepWalkItem, item_list]
    rw [mem_deepWalkElems (pre ++ [k]) es p x]
    constructor
    · rintro ⟨q, rfl, h⟩; exact ⟨k :: q, by simp, q, rfl, h⟩
    · rintro ⟨_, rfl, q, rfl, h⟩; exact ⟨q, by simp, h⟩
  | pre, (k, .node false es), p, x => by
    simp only [deepWalkItem, item_dict]
    rw [mem_deepWalkItems (pre ++ [k]) es p x]
    simp only [reaches_dict]
    constructor
    · rintro ⟨q, rfl, h⟩; exact ⟨k :: q, by simp, q, rfl, h⟩
    · rintro ⟨_, rfl, q, rfl, h⟩; exact ⟨q, by simp, h⟩

theorem mem_deepWalkElems : ∀ (pre : List Key) (es : List (Key × Cfg)) (p : List Key) (x : Cfg),
    (p, x) ∈ deepWalkElems pre es ↔ ∃ q, p = pre ++ q ∧ ∃ e ∈ es, Reaches e.2 q x
  | pre, [], p, x => by simp [deepWalkElems]
  | pre, e :: rest, p, x => by
    simp only [deepWalkElems, List.mem_append]
    rw [mem_deepWalkElem pre e p x, mem_deepWalkElems pre rest p x]
    simp only [List.mem_cons, exists_eq_or_imp]
    constructor
    · rintro (⟨q, h1, h2⟩ | ⟨q, h1, h2⟩)
      · exact ⟨q, h1, Or.inl h2⟩
      · exact ⟨q, h1, Or.inr h2⟩
    · rintro ⟨q, h1, h2 | h2⟩
      · exact Or.inl ⟨q, h1, h2⟩
      · exact Or.inr ⟨q, h1, h2⟩

theorem mem_deepWalkElem : ∀ (pre : List Key) (e : Key × Cfg) (p : List Key) (x : Cfg),
    (p, x) ∈ deepWalkElem pre e ↔ ∃ q, p = pre ++ q ∧ Reaches e.2 q x
  | pre, (_, v), p, x => by
    simp only [deepWalkElem]
    exact mem_deepWalk pre v p x
end

/-! ### Reading the settings of a sweep -/

theorem discover_loop_leaf (p : List Key) : ∀ (a : Atom) (v : Cfg), pathGetLoop (.leaf a) p = some v → ∃ a', v = .leaf a' := by
  induction p with
  | nil => intro a v h; simp only [pathGetLoop, Option.some.injEq] at h; exact ⟨a, h.symm⟩
  | cons k ks ih =>
    intro a v h
    simp only [pathGetLoop] at h
    cases hs : pathGetStep (.leaf a) k with
    | none => rw [hs] at h; simp at h
    | some w =>
      rw [hs] at h
      have : ∃ a', w = .leaf a' := by
        unfold pathGetStep at hs
        split at hs
        · simp at hs
        · cases a <;> cases k <;> simp only [Cfg.getItem, reduceCtorEq] at hs
          obtain ⟨ch, _, h2⟩ := Option.map_eq_some_iff.mp hs
          exact ⟨_, h2.symm⟩
      obtain ⟨a', rfl⟩ := this
      exact ih a' v h

theorem loop_node (p : List Key) : ∀ (c : Cfg) (l : Bool) (es : List (Key × Cfg)),
    pathGetLoop c p = some (.node l es) → readAt c p = some (.node l es) := by
  induction p with
  | nil => intro c l es h; simp only [pathGetLoop, Option.some.injEq] at h; subst h; rfl
  | cons k ks ih =>
    intro c l es h
    cases c with
    | leaf a => obtain ⟨a', h'⟩ := discover_loop_leaf _ _ _ h; cases h'
    | node b fs =>
      simp only [pathGetLoop] at h
      cases hs : pathGetStep (.node b fs) k with
      | none => rw [hs] at h; simp at h
      | some w =>
        rw [hs] at h
        have := step_lookup hs
        simp only [readAt, this]
        exact ih w l es h

theorem pathGet_node {c : Cfg} {p : List Key} {l : Bool} {es : List (Key × Cfg)} (h : pathGet c p = some (.node l es)) :
    readAt c p = some (.node l es) := by
  unfold pathGet at h
  split at h
  · simp at h
  · split at h
    · simp at h
    · split at h
      · simp at h
      · next hv _ => cases h; exact loop_node _ _ _ _ hv

theorem loop_plain (q : List Key) : ∀ (c : Cfg) (v : Cfg), Key.str "sweep" ∉ q → readAt c q = some v →
    pathGetLoop c q = some v := by
  induction q with
  | nil => intro c v _ h; rw [readAt_nil] at h; exact h
  | cons k ks ih =>
    intro c v hq h
    cases c with
    | leaf a => simp [readAt] at h
    | node b fs =>
      simp only [readAt] at h
      simp only [List.mem_cons, not_or] at hq
      cases hk : fs.lookup k with
      | none => rw [hk] at h; simp at h
      | some w =>
        rw [hk] at h
        have hs : pathGetStep (.node b fs) k = some w := by
          unfold pathGetStep
          rw [if_neg (Ne.symm hq.1)]
          simpa [Cfg.getItem] using hk
        simp only [pathGetLoop, hs]
        exact ih w v hq.2 h

theorem discover_readAt_append (p : List Key) : ∀ (q : List Key) (c : Cfg),
    readAt c (p ++ q) = (readAt c p).bind fun (v : Cfg) => readAt v q := by
  induction p with
  | nil => intro q c; simp [readAt_nil]
  | cons k ks ih =>
    intro q c
    cases c with
    | leaf a => simp [readAt]
    | node b fs =>
      simp only [List.cons_append, readAt]
      cases fs.lookup k with
      | none => rfl
      | some w => exact ih q w

theorem loop_append (p : List Key) : ∀ (q : List Key) (c : Cfg),
    pathGetLoop c (p ++ q) = (pathGetLoop c p).bind fun (v : Cfg) => pathGetLoop v q := by
  induction p with
  | nil => intro q c; simp [pathGetLoop]
  | cons k ks ih =>
    intro q c
    simp only [List.cons_append, pathGetLoop]
    cases pathGetStep c k with
    | none => rfl
    | some w => exact ih q w

/-- The settings of a sweep below dictionaries and lists are read by `path_get`. -/
theorem pathGet_sweep {c : Cfg} (hw : WellFormed c) {q : List Key} (hq : Key.str "sweep" ∉ q) {d : List (Key × Cfg)}
    (h : readAt c (q ++ [.str "sweep"]) = some (.node false d)) :
    pathGet c (q ++ [.str "sweep"]) = some (.node false d) := by
  have hl : pathGetLoop c (q ++ [.str "sweep"]) = some (.node false d) := by
    rw [discover_readAt_append] at h
    cases hv : readAt c q with
    | none => rw [hv] at h; simp at h
    | some v =>
      rw [hv] at h
      rw [loop_append, loop_plain q c v hq hv]
      simp only [Option.bind_some] at h ⊢
      cases v with
      | leaf a => simp [readAt] at h
      | node b fs =>
        simp only [readAt] at h
        cases hk : fs.lookup (Key.str "sweep") with
        | none => rw [hk] at h; simp at h
        | some w =>
          rw [hk] at h
          simp only [Option.some.injEq] at h
          subst h
          have hb : b = false := by
            cases b with
            | false => rfl
            | true =>
              exfalso
              have := (hw q true fs hv).2 rfl
              have hm : Key.str "sweep" ∈ fs.map Prod.fst := by
                rw [← lookup_isSome_iff, hk]; rfl
              rw [this] at hm
              simp at hm
          subst hb
          simp only [pathGetLoop, pathGetStep, if_true, hk, Cfg.isNotFound]
          rfl
  unfold pathGet
  rw [if_neg (by simp), hl]
  rfl

/-! ### Dictionaries -/

theorem lookup_putKey_self {β : Type} (es : List (Key × β)) (k : Key) (v : β) : (putKey es k v).lookup k = some v := by
  induction es with
  | nil => simp [putKey]
  | cons e rest ih =>
    obtain ⟨k', v'⟩ := e
    simp only [putKey]
    split
    · next h => subst h; simp [List.lookup]
    · next h =>
      have hb : (k == k') = false := by simpa using h
      simp only [List.lookup, hb]; exact ih

theorem lookup_putKey_ne {β : Type} (es : List (Key × β)) {k k2 : Key} (v : β) (h : k2 ≠ k) :
    (putKey es k v).lookup k2 = es.lookup k2 := by
  induction es with
  | nil =>
    have hb : (k2 == k) = false := by simpa using h
    simp [putKey, List.lookup, hb]
  | cons e rest ih =>
    obtain ⟨k', v'⟩ := e
    simp only [putKey]
    split
    · next h' =>
      subst h'
      have hb : (k2 == k) = false := by simpa using h
      simp [List.lookup, hb]
    · simp only [List.lookup]
      cases k2 == k' with
      | true => rfl
      | false => exact ih

theorem lookup_putKey {β : Type} (es : List (Key × β)) (k k2 : Key) (v : β) :
    (putKey es k v).lookup k2 = if k2 = k then some v else es.lookup k2 := by
  split
  · next h => subst h; exact lookup_putKey_self es k2 v
  · next h => exact lookup_putKey_ne es v h

theorem discover_lookup_filter_key {β : Type} (f : Key → Bool) (es : List (Key × β)) (k : Key) :
    (es.filter fun (e : Key × β) => f e.1).lookup k = if f k then es.lookup k else none := by
  induction es with
  | nil => simp
  | cons e rest ih =>
    obtain ⟨k', v'⟩ := e
    simp only [List.filter_cons]
    by_cases hk : k = k'
    · subst hk
      cases hf : f k with
      | true => simp [List.lookup]
      | false => simp [hf] at ih ⊢; exact ih
    · have hb : (k == k') = false := by simpa using hk
      split
      · simp only [List.lookup, hb]; exact ih
      · simp only [List.lookup, hb]; exact ih

theorem mem_keys_iff {β : Type} (es : List (Key × β)) (k : Key) : k ∈ es.map Prod.fst ↔ (es.lookup k).isSome := by
  induction es with
  | nil => simp
  | cons e rest ih =>
    obtain ⟨k', v'⟩ := e
    by_cases hk : k = k'
    · subst hk; simp [List.lookup]
    · have hb : (k == k') = false := by simpa using hk
      simp only [List.map_cons, List.mem_cons, hk, false_or, List.lookup, hb]; exact ih

theorem putKey_keys {β : Type} (es : List (Key × β)) (k : Key) (v : β) :
    (putKey es k v).map Prod.fst = if k ∈ es.map Prod.fst then es.map Prod.fst else es.map Prod.fst ++ [k] := by
  induction es with
  | nil => simp [putKey]
  | cons e rest ih =>
    obtain ⟨k', v'⟩ := e
    simp only [putKey]
    by_cases hk : k = k'
    · subst hk; simp
    · rw [if_neg hk]
      simp only [List.map_cons, ih, List.mem_cons, hk, false_or]
      split <;> simp

theorem putKey_nodup {β : Type} {es : List (Key × β)} (h : (es.map Prod.fst).Nodup) (k : Key) (v : β) :
    ((putKey es k v).map Prod.fst).Nodup := by
  rw [putKey_keys]
  split
  · exact h
  · next hk => exact List.nodup_append.mpr ⟨h, by simp, by
      intro a ha b hb; rw [List.mem_singleton] at hb; subst hb; rintro rfl; exact hk ha⟩

/-! ### Coupling, names and selection -/

theorem truthy_iff (x : Cfg) : x.isTruthy = true ↔ Truthy x := by
  cases x with
  | leaf a => cases a <;> simp [Cfg.isTruthy, Truthy]
  | node l es => simp [Cfg.isTruthy, Truthy]

theorem coupledTarget_some {d : List (Key × Cfg)} {t : Key} (h : coupledTarget d = some (some (some t))) :
    ∃ s, t = .str s ∧ SweptWith d s := by
  unfold coupledTarget at h
  split at h
  · simp at h
  · next x hx =>
    split at h
    · next ht =>
      split at h
      · simp at h
      · next s hs =>
        split at h
        · simp at h
        · next hne =>
          simp only [Option.some.injEq] at h
          exact ⟨s, h.symm, ⟨x, hx, (truthy_iff x).mp ht⟩, hs, hne⟩
      · simp at h
      · split at h <;> simp at h
    · simp at h

theorem coupledTarget_of {d : List (Key × Cfg)} {s : String} (h : SweptWith d s) :
    coupledTarget d = some (some (some (.str s))) := by
  obtain ⟨⟨x, hx, ht⟩, hs, hne⟩ := h
  have ht' := (truthy_iff x).mpr ht
  simp [coupledTarget, hx, ht', hs, hne]

theorem coupledTarget_none_iff (d : List (Key × Cfg)) : coupledTarget d = some none ↔ Uncoupled d := by
  unfold coupledTarget Uncoupled
  cases hc : d.lookup (.str "coupled") with
  | none => simp
  | some x =>
    cases ht : x.isTruthy with
    | false =>
      have : ¬ Truthy x := by rw [← truthy_iff, ht]; simp
      simp [ht, this]
    | true =>
      have h' : Truthy x := (truthy_iff x).mp ht
      cases hs : d.lookup (.str "target_name") with
      | none => simp [ht]
      | some v =>
        cases v with
        | leaf a => cases a <;> simp [ht, h']
        | node l es => cases es <;> simp [ht, h']

theorem sweptName_iff (q : List Key) (n : Key) : sweptName q = some n ↔ NamedAs q n := by
  unfold sweptName NamedAs
  constructor
  · intro h
    split at h
    · simp at h
    · next k rest hr =>
      have hq : q = rest.reverse ++ [k] := by
        have := congrArg List.reverse hr
        simpa using this
      split at h
      · next hk =>
        subst hk
        cases rest with
        | nil => simp at h
        | cons m rest' =>
          simp only [List.head?_cons, Option.some.injEq] at h
          subst h
          exact Or.inr ⟨rest'.reverse, by rw [hq]; simp⟩
      · next hk =>
        simp only [Option.some.injEq] at h
        subst h
        exact Or.inl ⟨rest.reverse, hq, hk⟩
  · rintro (⟨a, rfl, h⟩ | ⟨a, rfl⟩)
    · simp [h]
    · simp

theorem beforeSweep_not_mem (p : List Key) : Key.str "sweep" ∉ beforeSweep p := by
  induction p with
  | nil => simp [beforeSweep]
  | cons k ks ih =>
    by_cases hk : k = .str "sweep"
    · simp [beforeSweep, hk]
    · have hb : beforeSweep (k :: ks) = k :: beforeSweep ks := by simp [beforeSweep, hk]
      rw [hb, List.mem_cons, not_or]
      exact ⟨Ne.symm hk, ih⟩

theorem beforeSweep_split {p : List Key} (h : Key.str "sweep" ∈ p) : ∃ r, p = beforeSweep p ++ Key.str "sweep" :: r := by
  induction p with
  | nil => simp at h
  | cons k ks ih =>
    by_cases hk : k = .str "sweep"
    · subst hk; exact ⟨ks, by simp [beforeSweep]⟩
    · have : Key.str "sweep" ∈ ks := by
        rcases List.mem_cons.mp h with h | h
        · exact absurd h.symm hk
        · exact h
      obtain ⟨r, hr⟩ := ih this
      refine ⟨r, ?_⟩
      have hb : beforeSweep (k :: ks) = k :: beforeSweep ks := by simp [beforeSweep, hk]
      rw [hb, List.cons_append, ← hr]

theorem beforeSweep_of {q r : List Key} (h : Key.str "sweep" ∉ q) : beforeSweep (q ++ Key.str "sweep" :: r) = q := by
  induction q with
  | nil => simp [beforeSweep]
  | cons k ks ih =>
    simp only [List.mem_cons, not_or] at h
    have := ih h.2
    simp only [beforeSweep] at this ⊢
    simpa [Ne.symm h.1] using this

theorem beforeSweep_none {q : List Key} (h : Key.str "sweep" ∉ q) : beforeSweep q = q := by
  induction q with
  | nil => rfl
  | cons k ks ih =>
    simp only [List.mem_cons, not_or] at h
    have := ih h.2
    simp only [beforeSweep] at this ⊢
    simpa [Ne.symm h.1] using this

theorem isStr_iff (s : String) (x : Cfg) : x.isStr s = true ↔ x = .leaf (.str s) := by
  cases x with
  | leaf a => cases a <;> simp [Cfg.isStr]
  | node l es => simp [Cfg.isStr]

end GeNSIT
