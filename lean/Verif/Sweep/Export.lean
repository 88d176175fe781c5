import Verif.Sweep.Props
import Verif.Config.ValidateRead
import Verif.Config.Check
import Verif.Config.DeepLemmas

/-!
# Property theorem C189 (switching storage on and off)

`export_samples` and `export_metadata` are settings of an experiment, true unless given (`data/inputs/configs/schemas/cfg_schema.json:2963-2976`).  They are read in two ways: by
`Outputs.open_output_file` (`/repo/gensit/outputs.py:973-988`: the first occurrence anywhere in the settings) and by the experiment (`/repo/gensit/experiments.py:434,453,523,712`:
`experiments[0].get(…, True)`).  `ExperimentSweep.__init__` (`experiments.py:3649-3689`) turns them off while it sets itself up, and back on; every experiment of the sweep gets an additional
`export_samples = True` among the top-level settings (`config.py:1089`, model `experimentConfig`).
-/

namespace GeNSIT

open Spec

/-! ### Model -/

/-- `list(deep_get(key, settings))`, the first entry, true if there is none (`outputs.py:975-979`), as a condition (`outputs.py:988`). -/
def openExports (key : String) (s : Cfg) : Bool :=
  match deepGet (.str key) s with
  | [] => true
  | v :: _ => v.truthy

/-- `settings['experiments'][0]`; `none` = exception. -/
def firstExperiment (s : Cfg) : Option Cfg := (s.getItem (.str "experiments")).bind fun l => l.getItem (.idx 0)

/-- `settings['experiments'][0].get(key, True)` as a condition (`experiments.py:434,453,523,712`); `none` = exception. -/
def experimentExports (key : String) (s : Cfg) : Option Bool :=
  match firstExperiment s with
  | some (.node false e) => some (match e.lookup (.str key) with | none => true | some v => v.truthy)
  | _ => none

/-- What becomes of the samples of a run. -/
inductive StoreOutcome where
  /-- a file is opened, filled and closed -/
  | stores
  /-- no file -/
  | nothing
  /-- a file is opened (replacing an older one) and stays empty and open -/
  | emptyFile
  /-- `self.outputs.h5group` does not exist, or there is no first experiment -/
  | raises
  deriving DecidableEq

/-- A run: `open_output_file` (`outputs.py:973-1006`), then `initialise_data_structures`, `write_data`, `close_outputs` (`experiments.py:453-457,521-648,703-712`). -/
def runStorage (s : Cfg) : StoreOutcome :=
  match openExports "export_samples" s, experimentExports "export_samples" s with
  | true, some true => .stores
  | false, some false => .nothing
  | true, some false => .emptyFile
  | _, _ => .raises

/-- `ExperimentSweep.__init__` for one of the two switches (`experiments.py:3649-3653,3688-3689`): the settings while the sweep opens its own files, and those used afterwards; `none` = exception
(`['export_samples']` without default). -/
def sweepSettings (key : String) (s : Cfg) : Option (Cfg × Cfg) :=
  match (firstExperiment s).bind fun e => e.getItem (.str key) with
  | none => none
  | some v => some (deepUpdate (.str key) (.leaf (.bool false)) s, deepUpdate (.str key) v (deepUpdate (.str key) (.leaf (.bool false)) s))

/-! ### Specification -/

/-- Where a switch belongs. -/
def Spec.switchPath (key : String) : List Key := [.str "experiments", .idx 0, .str key]

/-- The switch is given nowhere else. -/
def Spec.OnlySwitch (key : String) (s : Cfg) : Prop := ∀ p, HasPath s p → p.getLast? = some (.str key) → p = Spec.switchPath key

/-- The switch is on unless given otherwise. -/
def Spec.SwitchedOn (key : String) (s : Cfg) : Prop := ∀ v, readAt s (Spec.switchPath key) = some v → v.truthy = true

/-- Settings with a first experiment. -/
def Spec.HasExperiment (s : Cfg) : Prop := ∃ es xs e, s = .node false es ∧ es.lookup (.str "experiments") = some (.node true xs) ∧ xs.lookup (.idx 0) = some (.node false e)

/-! ### Lemmas -/

theorem lookup_split {es : List (Key × Cfg)} {k : Key} {v : Cfg} (h : es.lookup k = some v) : ∃ pre post, es = pre ++ (k, v) :: post := by
  induction es with
  | nil => simp at h
  | cons e es ih =>
    obtain ⟨k', v'⟩ := e
    by_cases hk : k = k'
    · subst hk
      rw [List.lookup_cons_self, Option.some.injEq] at h
      exact ⟨[], es, by rw [h]; rfl⟩
    · have hb : (k == k') = false := by simpa using hk
      simp only [List.lookup, hb] at h
      obtain ⟨pre, post, rfl⟩ := ih h
      exact ⟨(k', v') :: pre, post, rfl⟩

theorem deepGetEntries_append (key : Key) (a b : List (Key × Cfg)) : deepGetEntries key (a ++ b) = deepGetEntries key a ++ deepGetEntries key b := by
  induction a with
  | nil => simp [deepGetEntries]
  | cons e a ih => simp [deepGetEntries, ih]

theorem deepUpdateEntries_append (key : Key) (w : Cfg) (a b : List (Key × Cfg)) : deepUpdateEntries key w (a ++ b) = deepUpdateEntries key w a ++ deepUpdateEntries key w b := by
  induction a with
  | nil => simp [deepUpdateEntries]
  | cons e a ih => simp [deepUpdateEntries, ih]

theorem deepUpdateElems_append (key : Key) (w : Cfg) (a b : List (Key × Cfg)) : deepUpdateElems key w (a ++ b) = deepUpdateElems key w a ++ deepUpdateElems key w b := by
  induction a with
  | nil => simp [deepUpdateElems]
  | cons e a ih => simp [deepUpdateElems, ih]

mutual
theorem deepUpdate_absent (key : Key) (w : Cfg) : ∀ c, deepGet key c = [] → deepUpdate key w c = c
  | .leaf _, _ => by simp [deepUpdate]
  | .node true es, _ => by simp [deepUpdate]
  | .node false es, h => by
    simp only [deepGet] at h
    simp only [deepUpdate, deepUpdateEntries_absent key w es h]
theorem deepUpdateEntries_absent (key : Key) (w : Cfg) : ∀ es, deepGetEntries key es = [] → deepUpdateEntries key w es = es
  | [], _ => rfl
  | e :: rest, h => by
    simp only [deepGetEntries, List.append_eq_nil_iff] at h
    simp only [deepUpdateEntries, deepUpdateEntry_absent key w e h.1, deepUpdateEntries_absent key w rest h.2]
theorem deepUpdateEntry_absent (key : Key) (w : Cfg) : ∀ e, deepGetEntry key e = [] → deepUpdateEntry key w e = e
  | (k, v), h => by
    simp only [deepGetEntry] at h
    by_cases hk : k = key
    · simp [hk] at h
    · rw [if_neg hk] at h
      simp only [deepUpdateEntry, if_neg hk, deepUpdateValue_absent key w v h]
theorem deepUpdateValue_absent (key : Key) (w : Cfg) : ∀ c, deepGet key c = [] → deepUpdateValue key w c = c
  | .leaf _, _ => by simp [deepUpdateValue]
  | .node true es, h => by
    simp only [deepGet] at h
    simp only [deepUpdateValue, deepUpdateElems_absent key w es h]
  | .node false es, h => by
    simp only [deepGet] at h
    simp only [deepUpdateValue, deepUpdateEntries_absent key w es h]
theorem deepUpdateElems_absent (key : Key) (w : Cfg) : ∀ es, deepGetEntries key es = [] → deepUpdateElems key w es = es
  | [], _ => rfl
  | e :: rest, h => by
    simp only [deepGetEntries, List.append_eq_nil_iff] at h
    simp only [deepUpdateElems, deepUpdateElem_absent key w e h.1, deepUpdateElems_absent key w rest h.2]
theorem deepUpdateElem_absent (key : Key) (w : Cfg) : ∀ e, deepGetEntry key e = [] → deepUpdateElem key w e = e
  | (k, v), h => by
    simp only [deepGetEntry] at h
    by_cases hk : k = key
    · simp [hk] at h
    · rw [if_neg hk] at h
      simp only [deepUpdateElem, deepUpdate_absent key w v h]
end

theorem eq_nil_or_singleton {α : Type} {l : List α} {a : α} (hn : l.Nodup) (h : ∀ x ∈ l, x = a) : l = [] ∨ l = [a] := by
  match l with
  | [] => exact Or.inl rfl
  | [x] => exact Or.inr (by rw [h x (by simp)])
  | x :: y :: r =>
    have h1 := h x (by simp)
    have h2 := h y (by simp)
    rw [h1, h2] at hn
    simp at hn

theorem deepGet_only (key : String) (hk : key ≠ "experiments") (s : Cfg) (hw : WellFormed s) (ho : Spec.OnlySwitch key s) :
    deepGet (.str key) s = (readAt s (Spec.switchPath key)).toList := by
  have hall : ∀ p ∈ outerTo (.str key) s, p = Spec.switchPath key := by
    intro p hp
    rw [mem_outerTo _ s hw] at hp
    exact ho p hp.1 hp.2.1
  have hm := deepGet_outer (.str key) s hw
  have hmem : Spec.switchPath key ∈ outerTo (.str key) s ↔ (readAt s (Spec.switchPath key)).isSome := by
    rw [mem_outerTo _ s hw]
    unfold Spec.switchPath HasPath
    simp
    intro _ h
    exact hk h
  rcases eq_nil_or_singleton (outerTo_nodup _ s hw) hall with h | h
  · rw [h] at hm hmem
    have h1 : deepGet (.str key) s = [] := by simpa using hm
    have h2 : readAt s (Spec.switchPath key) = none := by simpa using hmem
    rw [h1, h2]
    rfl
  · rw [h] at hm hmem
    have h2 : (readAt s (Spec.switchPath key)).isSome := hmem.1 (by simp)
    obtain ⟨v, hv⟩ := Option.isSome_iff_exists.1 h2
    rw [List.map_cons, List.map_nil, hv] at hm
    rw [hv]
    match hd : deepGet (.str key) s, hm with
    | [x], hm => simpa using hm

theorem readAt_switch {s : Cfg} {es xs e : List (Key × Cfg)} (key : String) (h1 : s = .node false es) (h2 : es.lookup (.str "experiments") = some (.node true xs))
    (h3 : xs.lookup (.idx 0) = some (.node false e)) : readAt s (Spec.switchPath key) = e.lookup (.str key) := by
  subst h1
  unfold Spec.switchPath
  simp only [readAt, h2, h3]
  cases e.lookup (.str key) <;> rfl

theorem firstExperiment_readAt {s : Cfg} {b : Bool} {xs : List (Key × Cfg)} (h : readAt s [.str "experiments"] = some (.node b xs)) : firstExperiment s = xs.lookup (.idx 0) := by
  cases s with
  | leaf t => simp [readAt] at h
  | node l es =>
    simp only [readAt] at h
    cases hl : es.lookup (.str "experiments") with
    | none => simp [hl] at h
    | some c =>
      simp only [hl, Option.some.injEq] at h
      subst h
      simp only [firstExperiment, Cfg.getItem, hl, Option.bind_some]

theorem setEntry_absent {es : List (Key × Cfg)} {k : Key} {v : Cfg} (h : es.lookup k = none) : setEntry es k v = es ++ [(k, v)] := by
  induction es with
  | nil => rfl
  | cons e es ih =>
    obtain ⟨k', v'⟩ := e
    by_cases hk : k = k'
    · subst hk
      simp at h
    · have hb : (k == k') = false := by simpa using hk
      simp only [List.lookup, hb] at h
      simp only [setEntry, if_neg hk, ih h, List.cons_append]

theorem firstExperiment_eq {s : Cfg} {es xs e : List (Key × Cfg)} (h1 : s = .node false es) (h2 : es.lookup (.str "experiments") = some (.node true xs))
    (h3 : xs.lookup (.idx 0) = some (.node false e)) : firstExperiment s = some (.node false e) := by
  subst h1
  simp only [firstExperiment, Cfg.getItem, h2, Option.bind_some, h3]

theorem setEntry_deepGet (key : Key) (es : List (Key × Cfg)) (k : Key) (v : Cfg) (hk : k ≠ key) (hv : deepGet key v = [])
    (hold : ∀ x, es.lookup k = some x → deepGet key x = []) : deepGetEntries key (setEntry es k v) = deepGetEntries key es := by
  induction es with
  | nil => simp [setEntry, deepGetEntries, deepGetEntry, hk, hv]
  | cons e es ih =>
    obtain ⟨k', v'⟩ := e
    by_cases h : k = k'
    · subst h
      have := hold v' (List.lookup_cons_self)
      simp [setEntry, deepGetEntries, deepGetEntry, hk, hv, this]
    · have hb : (k == k') = false := by simpa using h
      simp only [setEntry, if_neg h, deepGetEntries]
      rw [ih fun x hx => hold x (by simpa only [List.lookup, hb] using hx)]

theorem setEntry_deepGet_same (key : Key) (es : List (Key × Cfg)) (k : Key) (x v : Cfg) (hk : k ≠ key) (hx : es.lookup k = some x) (hv : deepGet key v = deepGet key x) :
    deepGetEntries key (setEntry es k v) = deepGetEntries key es := by
  induction es with
  | nil => simp at hx
  | cons e es ih =>
    obtain ⟨k', v'⟩ := e
    by_cases h : k = k'
    · subst h
      rw [List.lookup_cons_self, Option.some.injEq] at hx
      subst hx
      simp [setEntry, deepGetEntries, deepGetEntry, hk, hv]
    · have hb : (k == k') = false := by simpa using h
      simp only [List.lookup, hb] at hx
      simp only [setEntry, if_neg h, deepGetEntries]
      rw [ih hx]

/-- Writing something without the key, over something without the key, does not change what `deep_get` finds. -/
theorem pathSet_deepGet (key : Key) (v : Cfg) (hv : deepGet key v = []) : ∀ (p : List Key) (s s' : Cfg) (b : Bool), key ∉ p →
    (∀ x, readAt s p = some x → deepGet key x = []) → pathSet false s v p = some (s', b) → deepGet key s' = deepGet key s
  | [], s, s', b, _, _, h => by
    simp only [pathSet, Option.some.injEq, Prod.mk.injEq] at h
    rw [h.1]
  | [k], s, s', b, hk, hx, h => by
    simp only [pathSet, Option.map_eq_some_iff, Prod.mk.injEq] at h
    obtain ⟨t, ht, rfl, _⟩ := h
    have hk' : k ≠ key := fun e => hk (by simp [e])
    match s, ht with
    | .node false es, ht =>
      simp only [Cfg.setItem, Option.some.injEq] at ht
      subst ht
      simp only [deepGet]
      refine setEntry_deepGet key es k v hk' hv fun x hl => hx x ?_
      simp only [readAt, hl]
    | .node true es, ht =>
      simp only [Cfg.setItem] at ht
      split at ht
      · simp only [Option.some.injEq] at ht
        subst ht
        simp only [deepGet]
        refine setEntry_deepGet key es k v hk' hv fun x hl => hx x ?_
        simp only [readAt, hl]
      · simp at ht
  | k :: k' :: ks, s, s', b, hk, hx, h => by
    have hk1 : k ≠ key := fun e => hk (by simp [e])
    simp only [pathSet, Bool.false_eq_true, if_false] at h
    match s, h with
    | .node false es, h =>
      cases hl : es.lookup k with
      | none =>
        simp only [hl] at h
        cases hp : pathSet false Cfg.empty v (k' :: ks) with
        | none => simp [hp] at h
        | some r =>
          obtain ⟨t, c⟩ := r
          simp only [hp, Option.some.injEq, Prod.mk.injEq] at h
          rw [h.1]
      | some sub =>
        simp only [hl] at h
        cases hp : pathSet false sub v (k' :: ks) with
        | none => simp [hp] at h
        | some r =>
          obtain ⟨t, c⟩ := r
          simp only [hp, Option.some.injEq, Prod.mk.injEq] at h
          obtain ⟨rfl, _⟩ := h
          have ih := pathSet_deepGet key v hv (k' :: ks) sub t c (fun hm => hk (List.mem_cons_of_mem _ hm)) (fun x hr => hx x (by simp only [readAt, hl]; exact hr)) hp
          simp only [deepGet]
          exact setEntry_deepGet_same key es k sub t hk1 hl ih

theorem applySweep_deepGet (key : Key) : ∀ (ps : List SweepParam) (vs : List Cfg) (s s' : Cfg),
    (∀ v ∈ vs, deepGet key v = []) → (∀ p ∈ ps, key ∉ p.path ∧ ∀ x, readAt s p.path = some x → deepGet key x = []) → (∀ p ∈ ps, Writable s p.path) →
    ps.Pairwise (fun a b => Unrelated a.path b.path) → applySweep s ps vs = some s' → deepGet key s' = deepGet key s
  | [], vs, s, s', _, _, _, _, h => by
    simp only [applySweep, Option.some.injEq] at h
    rw [h]
  | p :: ps, [], s, s', _, _, _, _, h => by simp [applySweep] at h
  | p :: ps, v :: vs, s, s', hv, hp, hw, hu, h => by
    rw [List.pairwise_cons] at hu
    obtain ⟨t, h1, h2, h3, h4⟩ := pathSet_writable (v := v) (hw p (by simp))
    simp only [applySweep, h1] at h
    have ih := applySweep_deepGet key ps vs t s' (fun v' hv' => hv v' (by simp [hv'])) (fun q hq => ⟨(hp q (by simp [hq])).1, fun x hx => ?_⟩)
      (fun q hq => h4 _ (hu.1 q hq) (hw q (by simp [hq]))) hu.2 h
    · rw [ih]
      exact pathSet_deepGet key v (hv v (by simp)) p.path s t true (hp p (by simp)).1 (hp p (by simp)).2 h1
    · rw [h3 _ (hu.1 q hq)] at hx
      exact (hp q (by simp [hq])).2 x hx

/-! ### Theorems -/

/-- **C189 (a run).**  With the switch nowhere but in the experiment, the two readings agree: samples are stored if the switch is on or not given, and no file is touched otherwise. -/
theorem C189_run (s : Cfg) (hw : WellFormed s) (he : Spec.HasExperiment s) (ho : Spec.OnlySwitch "export_samples" s) :
    (Spec.SwitchedOn "export_samples" s → runStorage s = .stores) ∧ (¬ Spec.SwitchedOn "export_samples" s → runStorage s = .nothing) := by
  obtain ⟨es, xs, e, h1, h2, h3⟩ := he
  have hd := deepGet_only "export_samples" (by decide) s hw ho
  have hr := readAt_switch "export_samples" h1 h2 h3
  have hf := firstExperiment_eq h1 h2 h3
  unfold Spec.SwitchedOn runStorage openExports experimentExports
  rw [hd, hr, hf]
  cases hl : e.lookup (.str "export_samples") with
  | none => simp [hl]
  | some v => cases hv : v.truthy <;> simp [hl, hv]

/-- **C189 (the sweep itself).**  While a sweep sets itself up the switch is off, whatever it is; afterwards the settings are exactly what they were. -/
theorem C189_sweep (key : String) (hk : key ≠ "experiments") (s : Cfg) (hw : WellFormed s) (he : Spec.HasExperiment s) (ho : Spec.OnlySwitch key s)
    (hgiven : (readAt s (Spec.switchPath key)).isSome) : ∃ off, sweepSettings key s = some (off, s) ∧ openExports key off = false := by
  obtain ⟨es, xs, e, h1, h2, h3⟩ := he
  obtain ⟨v, hv⟩ := Option.isSome_iff_exists.1 hgiven
  have hd := deepGet_only key hk s hw ho
  rw [hv] at hd
  rw [readAt_switch key h1 h2 h3] at hv
  have hf := firstExperiment_eq h1 h2 h3
  obtain ⟨p1, q1, rfl⟩ := lookup_split h2
  obtain ⟨p2, q2, rfl⟩ := lookup_split h3
  obtain ⟨p3, q3, rfl⟩ := lookup_split hv
  subst h1
  have hne : Key.str "experiments" ≠ Key.str key := fun h => hk (by simpa using h.symm)
  have hne2 : Key.idx 0 ≠ Key.str key := by simp
  simp only [deepGet, deepGetEntries_append, deepGetEntries, deepGetEntry, if_neg hne, if_neg hne2, if_true] at hd
  have hnil : ∀ (a b c d f g : List Cfg), a ++ (b ++ (c ++ ([v] ++ d) ++ f) ++ g) = [v] → a = [] ∧ b = [] ∧ c = [] ∧ d = [] ∧ f = [] ∧ g = [] := by
    intro a b c d f g h
    have hlen := congrArg List.length h
    simp only [List.length_append, List.length_cons, List.length_nil] at hlen
    refine ⟨?_, ?_, ?_, ?_, ?_, ?_⟩ <;> (apply List.eq_nil_of_length_eq_zero; omega)
  obtain ⟨a1, a2, a3, a4, a5, a6⟩ := hnil _ _ _ _ _ _ hd
  have hupd : ∀ u w : Cfg, deepUpdate (.str key) w (.node false (p1 ++ (.str "experiments", .node true (p2 ++ (.idx 0, .node false (p3 ++ (.str key, u) :: q3)) :: q2)) :: q1)) =
      .node false (p1 ++ (.str "experiments", .node true (p2 ++ (.idx 0, .node false (p3 ++ (.str key, w) :: q3)) :: q2)) :: q1) := by
    intro u w
    simp only [deepUpdate, deepUpdateEntries_append, deepUpdateEntries, deepUpdateEntry, if_neg hne, deepUpdateValue, deepUpdateElems_append, deepUpdateElems, deepUpdateElem, if_true,
      deepUpdateEntries_absent _ w _ a1, deepUpdateEntries_absent _ w _ a3, deepUpdateEntries_absent _ w _ a4, deepUpdateEntries_absent _ w _ a6, deepUpdateElems_absent _ w _ a2,
      deepUpdateElems_absent _ w _ a5]
  refine ⟨.node false (p1 ++ (.str "experiments", .node true (p2 ++ (.idx 0, .node false (p3 ++ (.str key, .leaf (.bool false)) :: q3)) :: q2)) :: q1), ?_, ?_⟩
  · unfold sweepSettings
    rw [hf]
    simp only [Option.bind_some, Cfg.getItem, hv, hupd]
  · unfold openExports
    simp only [deepGet, deepGetEntries_append, deepGetEntries, deepGetEntry, if_neg hne, if_neg hne2, if_true, a1, a2, a3, a4, a5, a6]
    rfl

/-- **C189 (an experiment of the sweep).**  It stores its samples exactly if the switch of the sweep's configuration is on: the additional top-level entry is never reached. -/
theorem C189_sweep_run (es : List (Key × Cfg)) (ps : List SweepParam) (vs : List Cfg) (hws : WellFormed (.node false es)) (he : Spec.HasExperiment (.node false es))
    (ho : Spec.OnlySwitch "export_samples" (.node false es)) (hgiven : (readAt (.node false es) (Spec.switchPath "export_samples")).isSome)
    (hlen : ps.length = vs.length) (hw : ∀ p ∈ ps, Writable (.node false es) p.path) (hrel : ps.Pairwise fun a b => Unrelated a.path b.path)
    (hflags : ∀ p ∈ ps, p.path.head? ≠ some (.str "sweep_mode") ∧ p.path.head? ≠ some (.str "export_samples") ∧ p.path.head? ≠ some (.str "experiments"))
    (hkey : ∀ p ∈ ps, Key.str "export_samples" ∉ p.path) (hold : ∀ v ∈ vs, deepGet (.str "export_samples") v = []) :
    ∃ s' sweep, experimentConfig (.node false es) ps vs = some (s', sweep) ∧
      runStorage s' = if ∀ v, readAt (.node false es) (Spec.switchPath "export_samples") = some v → v.truthy = true then .stores else .nothing := by
  have hroot : ∀ (p : List Key) (x : Cfg), p ≠ [] → p.head? ≠ some (.str "experiments") → readAt (.node false es) p = some x → deepGet (.str "export_samples") x = [] := by
    intro p x hp hh hx
    have hwx : WellFormed x := by
      intro q l es' hq
      exact hws (p ++ q) l es' (by rw [readAt_append, hx]; exact hq)
    have ho' : outerTo (.str "export_samples") x = [] := by
      by_contra hne
      obtain ⟨q, hq⟩ := List.exists_mem_of_ne_nil _ hne
      rw [mem_outerTo _ x hwx] at hq
      have hpq : p ++ q = Spec.switchPath "export_samples" := by
        refine ho (p ++ q) ?_ ?_
        · have := hq.1
          unfold HasPath at this ⊢
          rw [readAt_append, hx]
          exact ⟨by simp [hp], this.2⟩
        · have := hq.2.1
          rw [List.getLast?_append, this]
          rfl
      cases p with
      | nil => exact hp rfl
      | cons k p =>
        simp only [Spec.switchPath, List.cons_append, List.cons.injEq] at hpq
        exact hh (by rw [hpq.1]; rfl)
    have := deepGet_outer (.str "export_samples") x hwx
    rw [ho'] at this
    simpa using this
  -- the two flags
  have htop : es.lookup (.str "export_samples") = none := by
    by_contra hne
    obtain ⟨x, hx⟩ := Option.ne_none_iff_exists'.1 hne
    have := ho [.str "export_samples"] ⟨by simp, by simp only [readAt, hx]; rfl⟩ rfl
    simp [Spec.switchPath] at this
  have hmode : ∀ x, es.lookup (.str "sweep_mode") = some x → deepGet (.str "export_samples") x = [] := by
    intro x hx
    exact hroot [.str "sweep_mode"] x (by simp) (by simp) (by simp only [readAt, hx])
  have hes1 : deepGetEntries (.str "export_samples") (setEntry es (.str "sweep_mode") (.leaf (.bool false))) = deepGetEntries (.str "export_samples") es :=
    setEntry_deepGet _ es _ _ (by simp) (by simp [deepGet]) hmode
  have htop1 : (setEntry es (.str "sweep_mode") (.leaf (.bool false))).lookup (.str "export_samples") = none := by
    rw [lookup_setEntry_ne _ _ (by decide), htop]
  have hes2 : deepGet (.str "export_samples") (.node false (setEntry (setEntry es (.str "sweep_mode") (.leaf (.bool false))) (.str "export_samples") (.leaf (.bool true)))) =
      deepGet (.str "export_samples") (.node false es) ++ [.leaf (.bool true)] := by
    rw [setEntry_absent htop1]
    simp only [deepGet, deepGetEntries_append, hes1, deepGetEntries, deepGetEntry, if_true, List.append_nil]
  have hother : ∀ q : List Key, q ≠ [] → q.head? ≠ some (.str "sweep_mode") → q.head? ≠ some (.str "export_samples") →
      readAt (.node false (setEntry (setEntry es (.str "sweep_mode") (.leaf (.bool false))) (.str "export_samples")
        (.leaf (.bool true)))) q = readAt (.node false es) q := by
    intro q hne h1 h2
    cases q with
    | nil => exact absurd rfl hne
    | cons k q =>
      have h1' : k ≠ .str "sweep_mode" := fun e => h1 (by simp [e])
      have h2' : k ≠ .str "export_samples" := fun e => h2 (by simp [e])
      simp only [readAt, lookup_setEntry_ne _ _ h2', lookup_setEntry_ne _ _ h1']
  have hw2 : ∀ p ∈ ps, Writable (.node false (setEntry (setEntry es (.str "sweep_mode") (.leaf (.bool false)))
      (.str "export_samples") (.leaf (.bool true)))) p.path := by
    intro p hp
    refine ⟨(hw p hp).1, ?_⟩
    intro q hq
    cases q with
    | nil => exact ⟨_, rfl⟩
    | cons k q =>
      have hk : p.path.head? = some k := by
        obtain ⟨t, ht⟩ := hq.trans (List.dropLast_prefix p.path)
        rw [← ht]; rfl
      rw [hother (k :: q) (by simp) (by simpa [hk] using (hflags p hp).1) (by simpa [hk] using (hflags p hp).2.1)]
      exact (hw p hp).2 _ hq
  obtain ⟨s', g1, -, g3⟩ := applySweep_spec ps vs _ (by omega) hw2 hrel
  refine ⟨s', sweepDict ps vs, by simp [experimentConfig, Cfg.setItem, g1], ?_⟩
  -- the first reading
  have hd : deepGet (.str "export_samples") s' = deepGet (.str "export_samples") (.node false es) ++ [.leaf (.bool true)] := by
    rw [← hes2]
    refine applySweep_deepGet _ ps vs _ s' hold (fun p hp => ⟨hkey p hp, fun x hx => ?_⟩) hw2 hrel g1
    rw [hother _ (hw p hp).1 (hflags p hp).1 (hflags p hp).2.1] at hx
    exact hroot p.path x (hw p hp).1 (hflags p hp).2.2 hx
  rw [deepGet_only "export_samples" (by decide) _ hws ho] at hd
  -- the second reading
  have hsecond : firstExperiment s' = firstExperiment (.node false es) := by
    obtain ⟨es0, xs, e, h1, h2, h3⟩ := he
    have hex : readAt (.node false es) [.str "experiments"] = some (.node true xs) := by
      rw [h1]
      simp only [readAt, h2]
    rw [firstExperiment_readAt hex]
    refine firstExperiment_readAt (b := true) ?_
    rw [g3, hother _ (by simp) (by simp) (by simp), hex]
    intro p hp
    have hne := (hw p hp).1
    constructor
    · rintro ⟨t, ht⟩
      cases hpp : p.path with
      | nil => exact hne hpp
      | cons k r =>
        rw [hpp] at ht
        simp only [List.cons_append, List.cons.injEq] at ht
        exact (hflags p hp).2.2 (by rw [hpp, ht.1]; rfl)
    · rintro ⟨t, ht⟩
      exact (hflags p hp).2.2 (by rw [← ht]; rfl)
  obtain ⟨es0, xs, e, h1, h2, h3⟩ := he
  obtain ⟨v, hv⟩ := Option.isSome_iff_exists.1 hgiven
  have hl := readAt_switch "export_samples" h1 h2 h3
  rw [hv] at hl hd
  unfold runStorage openExports experimentExports
  rw [hsecond, firstExperiment_eq h1 h2 h3, hd, hv]
  cases ht : v.truthy <;> simp [← hl, ht]

/-! ### Examples and counterexamples -/

/-- A configuration with the experiment's settings and further ones. -/
def exportCfg (e rest : List (Key × Cfg)) : Cfg := .node false (rest ++ [(.str "experiments", .node true [(.idx 0, .node false e)])])

/-- The switch given as `b`, with a parameter to sweep. -/
def exportOn (b : Bool) : Cfg := exportCfg [(.str "type", .leaf (.str "SIM_MCMC")), (.str "export_samples", .leaf (.bool b))] [(.str "x", .leaf (.num 1))]

theorem onlySwitch_of_check (key : String) (c : Cfg) (h : ((subtrees c).all fun (t : List Key × Cfg) => decide (t.1.getLast? = some (.str key) → t.1 = Spec.switchPath key)) = true) :
    Spec.OnlySwitch key c := by
  intro p hp hl
  obtain ⟨x, hx⟩ := Option.isSome_iff_exists.1 hp.2
  have := List.all_eq_true.mp h _ (mem_subtrees p c _ hx)
  exact of_decide_eq_true this hl

/-- The premises of the theorems hold of an ordinary configuration. -/
theorem C189_premises (b : Bool) : WellFormed (exportOn b) ∧ Spec.HasExperiment (exportOn b) ∧ Spec.OnlySwitch "export_samples" (exportOn b) ∧
    readAt (exportOn b) (Spec.switchPath "export_samples") = some (.leaf (.bool b)) := by
  have hw : WellFormed (exportOn b) := by
    apply wellFormed_of_check
    cases b <;> decide +kernel
  refine ⟨hw, ⟨_, _, _, rfl, rfl, rfl⟩, onlySwitch_of_check _ _ (by cases b <;> decide +kernel), by cases b <;> rfl⟩

/-- A run stores, or does not, as the configuration says. -/
example : runStorage (exportOn true) = .stores ∧ runStorage (exportOn false) = .nothing := ⟨rfl, rfl⟩

/-- A sweep over `x`, with the switch off: no file. -/
example : ((experimentConfig (exportOn false) [⟨.str "x", [.str "x"]⟩] [.leaf (.num 2)]).map fun r => runStorage r.1) = some .nothing := rfl

/-- With the switch on the experiments of a sweep store their samples. -/
example : ((experimentConfig (exportOn true) [⟨.str "x", [.str "x"]⟩] [.leaf (.num 2)]).map fun r => runStorage r.1) = some .stores := rfl

/-- **C189 does not hold of a switch that is not given**, though the settings of an experiment need not give it: a run stores its samples, a sweep of the same experiment raises (`KeyError`,
`experiments.py:3650`) — with `export_metadata` likewise. -/
theorem C189_missing_false : ∃ s, WellFormed s ∧ Spec.HasExperiment s ∧ Spec.OnlySwitch "export_samples" s ∧ Spec.SwitchedOn "export_samples" s ∧
    runStorage s = .stores ∧ sweepSettings "export_samples" s = none := by
  have hw : WellFormed (exportCfg [(.str "type", .leaf (.str "SIM_MCMC"))] [(.str "x", .leaf (.num 1))]) := by
    apply wellFormed_of_check
    decide +kernel
  refine ⟨_, hw, ⟨_, _, _, rfl, rfl, rfl⟩, onlySwitch_of_check _ _ (by decide +kernel), ?_, rfl, rfl⟩
  intro v hv
  have hn : readAt (exportCfg [(.str "type", .leaf (.str "SIM_MCMC"))] [(.str "x", .leaf (.num 1))]) (Spec.switchPath "export_samples") = none := rfl
  rw [hn] at hv
  cases hv

/-- Missing, the switch makes every sweep raise. -/
theorem C189_missing (key : String) (s : Cfg) (he : Spec.HasExperiment s) (hm : readAt s (Spec.switchPath key) = none) : sweepSettings key s = none := by
  obtain ⟨es, xs, e, h1, h2, h3⟩ := he
  rw [readAt_switch key h1 h2 h3] at hm
  unfold sweepSettings
  rw [firstExperiment_eq h1 h2 h3]
  simp only [Option.bind_some, Cfg.getItem, hm]

/-- **C189 does not hold of a switch given twice**: on among the settings of the whole, before the experiments, and off in the experiment, a file is opened — which replaces an older one — and
nothing is ever written to it, nor is it closed.  (`ExperimentSweep` writes such an entry, but after the experiments.) -/
theorem C189_twice_false : ∃ s, WellFormed s ∧ Spec.HasExperiment s ∧ ¬ Spec.SwitchedOn "export_samples" s ∧ runStorage s = .emptyFile := by
  have hw : WellFormed (exportCfg [(.str "export_samples", .leaf (.bool false))] [(.str "export_samples", .leaf (.bool true))]) := by
    apply wellFormed_of_check
    decide +kernel
  refine ⟨_, hw, ⟨_, _, _, rfl, rfl, rfl⟩, fun h => ?_, rfl⟩
  have := h (.leaf (.bool false)) rfl
  exact absurd this (by decide)

/-- … and the other way round the experiment raises: it writes to a group that was never opened. -/
theorem C189_twice_raises : ∃ s, WellFormed s ∧ Spec.HasExperiment s ∧ Spec.SwitchedOn "export_samples" s ∧ runStorage s = .raises := by
  have hw : WellFormed (exportCfg [(.str "export_samples", .leaf (.bool true))] [(.str "export_samples", .leaf (.bool false))]) := by
    apply wellFormed_of_check
    decide +kernel
  refine ⟨_, hw, ⟨_, _, _, rfl, rfl, rfl⟩, fun v hv => ?_, rfl⟩
  have : readAt (exportCfg [(.str "export_samples", .leaf (.bool true))] [(.str "export_samples", .leaf (.bool false))]) (Spec.switchPath "export_samples") = some (.leaf (.bool true)) := rfl
  rw [this, Option.some.injEq] at hv
  subst hv
  rfl

end GeNSIT
