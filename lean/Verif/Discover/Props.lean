import Verif.Discover.Loop
import Verif.Config.Props

/-!
# C140: which parameters of a settings tree are swept

`findSweeps c = some r` stands for a call of `find_sweep_key_paths` on fresh path dictionaries that does not raise.
-/

set_option linter.unusedVariables false

namespace GeNSIT

open Spec

/-- `'key'`. -/
private abbrev K (s : String) : Key := .str s
/-- A number. -/
private abbrev N (x : Int) : Cfg := .leaf (.num x)
/-- A dictionary. -/
private abbrev D (es : List (Key × Cfg)) : Cfg := .node false es
/-- A list. -/
private abbrev L (xs : List Cfg) : Cfg := .node true (xs.zipIdx.map fun (e : Cfg × Nat) => (Key.idx e.2, e.1))

/-- The keys of every dictionary are strings (as in any JSON file). -/
def Spec.StringKeys (c : Cfg) : Prop :=
  ∀ p es, readAt c p = some (.node false es) → ∀ e ∈ es, ∃ s, e.1 = Key.str s

/-- What a JSON file with unique keys gives. -/
structure Spec.JsonTree (c : Cfg) : Prop where
  wf : WellFormed c
  strings : StringKeys c

private theorem child {b : Bool} {es : List (Key × Cfg)} (h : JsonTree (.node b es)) {k : Key} {v : Cfg} (hv : (k, v) ∈ es) :
    es.lookup k = some v ∧ JsonTree v := by
  have hc := wf_child h.wf hv
  refine ⟨hc.1, hc.2, ?_⟩
  intro p fs hp
  refine h.strings (k :: p) fs ?_
  simp only [readAt, hc.1]; exact hp

private theorem reaches_strings {c : Cfg} {p : List Key} {x : Cfg} (h : Reaches c p x) :
    JsonTree c → ∀ k ∈ p, ∃ s, k = Key.str s := by
  induction h with
  | here _ => intro _ k hk; simp at hk
  | @entry es k v p x hm hl hr ih =>
    intro hc k' hk'
    rcases List.mem_cons.mp hk' with rfl | hk'
    · exact hc.strings [] es rfl _ hm
    · exact ih (child hc hm).2 k' hk'
  | @element es l k i v p x hm hi hr ih =>
    intro hc k' hk'
    rcases List.mem_cons.mp hk' with rfl | hk'
    · exact hc.strings [] es rfl _ hm
    · exact ih (child (child hc hm).2 hi).2 k' hk'

private theorem list_no_string {l : List (Key × Cfg)} (h : JsonTree (.node true l)) (s : String) : l.lookup (.str s) = none := by
  rw [lookup_none_iff, (h.wf [] true l rfl).2 rfl]
  simp

private theorem reaches_no_sweep {c : Cfg} {p : List Key} {x : Cfg} (h : Reaches c p x) :
    JsonTree c → ∀ v, readAt c (p ++ [.str "sweep"]) ≠ some v := by
  induction h with
  | @here c hd =>
    intro hc v
    cases c with
    | leaf a => simp [readAt]
    | node b es =>
      cases b with
      | false => simp [Cfg.isDict] at hd
      | true => simp [readAt, list_no_string hc]
  | @entry es k v p x hm hl hr ih =>
    intro hc w
    obtain ⟨h1, h2⟩ := child hc hm
    simp only [List.cons_append, readAt, h1]
    exact ih h2 w
  | @element es l k i v p x hm hi hr ih =>
    intro hc w
    obtain ⟨h1, h2⟩ := child hc hm
    have hs := reaches_strings hr (child h2 hi).2
    simp only [List.cons_append, readAt, h1]
    cases p with
    | nil => simp [readAt, list_no_string h2]
    | cons k' p' =>
      obtain ⟨s, rfl⟩ := hs k' (by simp)
      simp [readAt, list_no_string h2]

private theorem filed_sweep {c : Cfg} (hc : JsonTree c) {e : List Key × Cfg} (he : e ∈ deepWalk [] c) {q : List Key} {n : Key}
    {d : List (Key × Cfg)} (h : Filed c e q n d) : Sweep c q n d := by
  obtain ⟨p, x⟩ := e
  obtain ⟨hs, rfl, hg, hn⟩ := h
  obtain ⟨p', hp, hr⟩ := (mem_deepWalk [] c p x).mp he
  simp only [List.nil_append] at hp
  subst hp
  have hg' := pathGet_node hg
  refine ⟨⟨beforeSweep_not_mem _, ?_⟩, (sweptName_iff _ n).mp hn, hg'⟩
  simp only [isSweepPath, Bool.and_eq_true, Bool.or_eq_true, List.contains_iff_mem, isStr_iff] at hs
  by_cases hm : Key.str "sweep" ∈ p
  · obtain ⟨r, hr'⟩ := beforeSweep_split hm
    refine ⟨r, x, by rw [← hr']; exact hr, ?_⟩
    rcases hs.2 with h2 | h2
    · rw [hr'] at h2
      rcases List.mem_append.mp h2 with h2 | h2
      · exact Or.inl h2
      · rcases List.mem_cons.mp h2 with h2 | h2
        · simp at h2
        · exact Or.inr (Or.inl h2)
    · exact Or.inr (Or.inr h2)
  · exfalso
    simp only [beforeSweep_none hm] at hg'
    exact reaches_no_sweep hr hc _ hg'

private theorem sweep_filed {c : Cfg} (hc : JsonTree c) {q : List Key} {n : Key} {d : List (Key × Cfg)} (h : Sweep c q n d) :
    ∃ e ∈ deepWalk [] c, Filed c e q n d := by
  obtain ⟨⟨h1, r, x, hr, h2⟩, h3, h4⟩ := h
  refine ⟨(q ++ Key.str "sweep" :: r, x), (mem_deepWalk [] c _ x).mpr ⟨_, rfl, hr⟩, ?_, (beforeSweep_of h1).symm,
    pathGet_sweep hc.wf h1 h4, (sweptName_iff q n).mpr h3⟩
  simp only [isSweepPath, Bool.and_eq_true, Bool.or_eq_true, List.contains_iff_mem, isStr_iff, List.mem_append,
    List.mem_cons]
  refine ⟨Or.inl (Or.inr (Or.inl trivial)), ?_⟩
  rcases h2 with h2 | h2 | h2
  · exact Or.inl (Or.inl h2)
  · exact Or.inl (Or.inr (Or.inr h2))
  · exact Or.inr h2

private theorem found_iff (c : Cfg) (hw : WellFormed c) (t : Key) :
    (pathFind t c [] []).2 ≠ [] ↔ ∃ p, HasPath c p ∧ p.getLast? = some t := by
  obtain ⟨h1, h2⟩ := C32_exists_iff_found t c hw
  rw [← h1, h2]

private theorem findSweeps_some {c : Cfg} {r : SweepPaths} (h : findSweeps c = some r) :
    ∃ st, Describes c (deepWalk [] c) st ∧ r.coupled = st.coupled ∧
      ∀ n, r.isolated.lookup n = if (st.coupled.lookup n).isNone then st.isolated.lookup n else none := by
  unfold findSweeps at h
  split at h
  · simp at h
  · next st hst =>
    simp only [Option.some.injEq] at h
    subst h
    refine ⟨st, ?_, rfl, ?_⟩
    · simpa using describes_loop _ [] ⟨[], []⟩ st (describes_nil c) hst
    · intro n
      exact discover_lookup_filter_key (fun k => (st.coupled.lookup k).isNone) st.isolated n

/-! ## What is registered is swept -/

/-- Every isolated sweep is the path of a parameter that is swept and not coupled, under its name, and that name is not the
target of a coupled sweep. -/
theorem C140_isolated_sound (c : Cfg) (hc : JsonTree c) (r : SweepPaths) (h : findSweeps c = some r) (n : Key) (q : List Key)
    (hl : r.isolated.lookup n = some q) :
    (∃ d, Sweep c q n d ∧ Uncoupled d) ∧ r.coupled.lookup n = none := by
  obtain ⟨st, hd, h1, h2⟩ := findSweeps_some h
  rw [h2] at hl
  split at hl
  · next hn =>
    obtain ⟨e, he, d, hf, ht⟩ := hd.isoSound n q hl
    refine ⟨⟨d, filed_sweep hc he hf, (coupledTarget_none_iff d).mp ht⟩, ?_⟩
    rw [h1]; simpa using hn
  · simp at hl

/-- Every member of a coupled group is either the path of a swept parameter coupled to the target of the group, under its
name, or the target itself with the first path at which the target's name is found; and some swept parameter is coupled to
the target. -/
theorem C140_coupled_sound (c : Cfg) (hc : JsonTree c) (r : SweepPaths) (h : findSweeps c = some r) (t : Key)
    (g : List (Key × List Key)) (hg : r.coupled.lookup t = some g) :
    ∃ s, t = .str s ∧ (∃ q n d, Sweep c q n d ∧ SweptWith d s) ∧ (g.lookup t).isSome ∧
      ∀ n q, g.lookup n = some q →
        (∃ d, Sweep c q n d ∧ SweptWith d s) ∨ (n = t ∧ (pathFind t c [] []).2.head? = some q) := by
  obtain ⟨st, hd, h1, h2⟩ := findSweeps_some h
  rw [h1] at hg
  obtain ⟨_, u2, e, he, q, n, d, hf, ht⟩ := hd.coupUsed t g hg
  obtain ⟨s, rfl, hs⟩ := coupledTarget_some ht
  refine ⟨s, rfl, ⟨q, n, d, filed_sweep hc he hf, hs⟩, u2, ?_⟩
  intro n' q' hl
  rcases hd.coupSound _ g n' q' hg hl with ⟨e', he', d', hf', ht'⟩ | h'
  · obtain ⟨s', h3, hs'⟩ := coupledTarget_some ht'
    cases h3
    exact Or.inl ⟨d', filed_sweep hc he' hf', hs'⟩
  · exact Or.inr h'

/-! ## What is swept is registered -/

/-- A swept parameter that is not coupled is registered at its path, provided no other uncoupled sweep has the same name
and nothing is coupled to that name. -/
theorem C140_isolated_found_partial (c : Cfg) (hc : JsonTree c) (r : SweepPaths) (h : findSweeps c = some r) (q : List Key)
    (n : Key) (d : List (Key × Cfg)) (hs : Sweep c q n d) (hu : Uncoupled d)
    (hone : ∀ q' d', Sweep c q' n d' → Uncoupled d' → q' = q)
    (ht : ∀ q' n' d' s, Sweep c q' n' d' → SweptWith d' s → n ≠ .str s) : r.isolated.lookup n = some q := by
  obtain ⟨st, hd, h1, h2⟩ := findSweeps_some h
  obtain ⟨e, he, hf⟩ := sweep_filed hc hs
  have hi := hd.isoComplete e he q n d hf ((coupledTarget_none_iff d).mpr hu)
  obtain ⟨q', hq'⟩ := Option.isSome_iff_exists.mp hi
  obtain ⟨e', he', d', hf', ht'⟩ := hd.isoSound n q' hq'
  have := hone q' d' (filed_sweep hc he' hf') ((coupledTarget_none_iff d').mp ht')
  subst this
  rw [h2, hq']
  have hn : st.coupled.lookup n = none := by
    cases hx : st.coupled.lookup n with
    | none => rfl
    | some g =>
      exfalso
      obtain ⟨_, _, e2, he2, q2, n2, d2, hf2, ht2⟩ := hd.coupUsed n g hx
      obtain ⟨s, hs1, hs2⟩ := coupledTarget_some ht2
      exact ht q2 n2 d2 s (filed_sweep hc he2 hf2) hs2 hs1
  simp [hn]

/-- A coupled sweep whose target's name occurs in the settings is registered in the group of its target at its path,
provided no other sweep of the same name is coupled to that target and it is not its own target. -/
theorem C140_coupled_found_partial (c : Cfg) (hc : JsonTree c) (r : SweepPaths) (h : findSweeps c = some r) (q : List Key)
    (n : Key) (d : List (Key × Cfg)) (s : String) (hs : Sweep c q n d) (ht : SweptWith d s) (hself : n ≠ .str s)
    (hex : ∃ p, HasPath c p ∧ p.getLast? = some (.str s))
    (hone : ∀ q' d', Sweep c q' n d' → SweptWith d' s → q' = q) :
    ∃ g, r.coupled.lookup (.str s) = some g ∧ g.lookup n = some q ∧ (g.lookup (.str s)).isSome := by
  obtain ⟨st, hd, h1, h2⟩ := findSweeps_some h
  obtain ⟨e, he, hf⟩ := sweep_filed hc hs
  obtain ⟨g, hg, hn⟩ := hd.coupComplete e he q n d (.str s) hf (coupledTarget_of ht) ((found_iff c hc.wf _).mpr hex)
  obtain ⟨q', hq'⟩ := Option.isSome_iff_exists.mp hn
  refine ⟨g, by rw [h1]; exact hg, ?_, (hd.coupUsed _ g hg).2.1⟩
  rcases hd.coupSound _ g n q' hg hq' with ⟨e', he', d', hf', ht'⟩ | ⟨h', _⟩
  · obtain ⟨s', h3, hs'⟩ := coupledTarget_some ht'
    cases h3
    have := hone q' d' (filed_sweep hc he' hf') hs'
    subst this; exact hq'
  · exact absurd h' hself

/-- The target of a coupled group gets the path of its own sweep when its name occurs only once in the settings (and no
key is repeated along a path). -/
theorem C140_target_path_partial (c : Cfg) (hc : JsonTree c) (hrep : ∀ p, HasPath c p → p.Nodup) (r : SweepPaths)
    (h : findSweeps c = some r) (s : String) (g : List (Key × List Key)) (hg : r.coupled.lookup (.str s) = some g)
    (q : List Key) (hq : HasPath c q) (hlast : q.getLast? = some (.str s))
    (honly : ∀ p, HasPath c p → p.getLast? = some (.str s) → p = q)
    (hself : ∀ q' d', Sweep c q' (.str s) d' → ¬ SweptWith d' s) : g.lookup (.str s) = some q := by
  obtain ⟨s', hs', _, hsome, hall⟩ := C140_coupled_sound c hc r h _ g hg
  cases hs'
  obtain ⟨q', hq'⟩ := Option.isSome_iff_exists.mp hsome
  rcases hall _ q' hq' with ⟨d, h1, h2⟩ | ⟨_, h2⟩
  · exact absurd h2 (hself q' d h1)
  · have hm : q' ∈ (pathFind (.str s) c [] []).2 := by
      cases hx : (pathFind (.str s) c [] []).2 with
      | nil => rw [hx] at h2; simp at h2
      | cons a b => rw [hx] at h2; simp only [List.head?_cons, Option.some.injEq] at h2; simp [h2]
    obtain ⟨h3, h4⟩ := ((C31_find_exact_partial (.str s) c hc.wf hrep).2 q').mp hm
    rw [hq', honly q' h3 h4]

/-! ## The names of the swept parameters -/

/-- Every listed name belongs to a swept parameter or is the target of one. -/
theorem C140_names_sound (c : Cfg) (hc : JsonTree c) (r : SweepPaths) (h : findSweeps c = some r) (n : Key)
    (hn : n ∈ sweepParamNames r) :
    (∃ q d, Sweep c q n d) ∨ ∃ s q n' d, n = .str s ∧ Sweep c q n' d ∧ SweptWith d s := by
  obtain ⟨st, hd, h1, h2⟩ := findSweeps_some h
  simp only [sweepParamNames, List.mem_append, mem_keys_iff, List.mem_flatMap] at hn
  rcases hn with hn | ⟨⟨t, g⟩, hm, hn⟩
  · obtain ⟨q, hq⟩ := Option.isSome_iff_exists.mp hn
    obtain ⟨⟨d, h3, _⟩, _⟩ := C140_isolated_sound c hc r h n q hq
    exact Or.inl ⟨q, d, h3⟩
  · have hg : r.coupled.lookup t = some g := by
      rw [h1] at hm ⊢
      have hnd := hd.coupNodup
      clear hn h2 h1
      generalize st.coupled = l at hm hnd
      induction l with
      | nil => simp at hm
      | cons e rest ih =>
        obtain ⟨t', g'⟩ := e
        simp only [List.map_cons, List.nodup_cons] at hnd
        rcases List.mem_cons.mp hm with hm2 | hm2
        · cases hm2; simp [List.lookup]
        · have hne : t ≠ t' := by rintro rfl; exact hnd.1 (List.mem_map.mpr ⟨(t, g), hm2, rfl⟩)
          have hb : (t == t') = false := by simpa using hne
          simp only [List.lookup, hb]
          exact ih hm2 hnd.2
    obtain ⟨q, hq⟩ := Option.isSome_iff_exists.mp hn
    obtain ⟨s, h3, ⟨q0, n0, d0, h4, h5⟩, _, h6⟩ := C140_coupled_sound c hc r h t g hg
    rcases h6 n q hq with ⟨d, h7, _⟩ | ⟨h7, _⟩
    · exact Or.inl ⟨q, d, h7⟩
    · exact Or.inr ⟨s, q0, n0, d0, by rw [h7, h3], h4, h5⟩

/-- Every swept parameter that is not coupled, and every one coupled to a name that occurs in the settings, is listed by
its name. -/
theorem C140_names_complete_partial (c : Cfg) (hc : JsonTree c) (r : SweepPaths) (h : findSweeps c = some r) (q : List Key)
    (n : Key) (d : List (Key × Cfg)) (hs : Sweep c q n d)
    (ht : Uncoupled d ∨ ∃ s, SweptWith d s ∧ ∃ p, HasPath c p ∧ p.getLast? = some (.str s)) : n ∈ sweepParamNames r := by
  obtain ⟨st, hd, h1, h2⟩ := findSweeps_some h
  obtain ⟨e, he, hf⟩ := sweep_filed hc hs
  have group : ∀ t g, st.coupled.lookup t = some g → (g.lookup n).isSome → n ∈ sweepParamNames r := by
    intro t g hg hn
    simp only [sweepParamNames, List.mem_append, List.mem_flatMap, h1]
    right
    refine ⟨(t, g), ?_, (mem_keys_iff g n).mpr hn⟩
    clear h1 h2 hd
    generalize st.coupled = l at hg
    induction l with
    | nil => simp at hg
    | cons e rest ih =>
      obtain ⟨t', g'⟩ := e
      simp only [List.lookup] at hg
      split at hg
      · next hb =>
        simp only [beq_iff_eq] at hb
        simp only [Option.some.injEq] at hg
        subst hb; subst hg; simp
      · exact List.mem_cons_of_mem _ (ih hg)
  rcases ht with hu | ⟨s, ht, hex⟩
  · have hi := hd.isoComplete e he q n d hf ((coupledTarget_none_iff d).mpr hu)
    cases hx : st.coupled.lookup n with
    | none =>
      simp only [sweepParamNames, List.mem_append, mem_keys_iff]
      left
      rw [h2, hx]; simpa using hi
    | some g => exact group n g hx (hd.coupUsed n g hx).2.1
  · obtain ⟨g, hg, hn⟩ := hd.coupComplete e he q n d (.str s) hf (coupledTarget_of ht) ((found_iff c hc.wf _).mpr hex)
    exact group _ g hg hn

/-! ## When discovery raises -/

/-- Discovery succeeds exactly when no value `"sweep"` is found below a key `range`, and every swept parameter has a name
and a dictionary of sweep settings that can be reached without passing through a list, whose target, if it is coupled, is
not a number, a boolean or null. -/
theorem C140_succeeds_iff (c : Cfg) (hc : JsonTree c) :
    (findSweeps c).isSome ↔
      (∀ p, Reaches c p (.leaf (.str "sweep")) → Key.str "sweep" ∉ p → Key.str "range" ∉ p) ∧
      ∀ q, SweptAt c q → ∃ n d, Sweep c q n d ∧
        ∀ x a, d.lookup (.str "coupled") = some x → Truthy x → d.lookup (.str "target_name") = some (.leaf a) →
          ∃ s, a = .str s := by
  have htgt : ∀ d : List (Key × Cfg), coupledTarget d ≠ none ↔
      ∀ x a, d.lookup (.str "coupled") = some x → Truthy x → d.lookup (.str "target_name") = some (.leaf a) →
        ∃ s, a = .str s := by
    intro d
    unfold coupledTarget
    cases hcp : d.lookup (.str "coupled") with
    | none => simp
    | some x =>
      cases htx : x.isTruthy with
      | false =>
        have : ¬ Truthy x := by rw [← truthy_iff, htx]; simp
        simp only [htx, Bool.false_eq_true, if_false, ne_eq, reduceCtorEq, not_false_eq_true, true_iff,
          Option.some.injEq]
        rintro x' a rfl hx'
        exact absurd hx' this
      | true =>
        have h' : Truthy x := (truthy_iff x).mp htx
        cases hs : d.lookup (.str "target_name") with
        | none => simp [htx]
        | some v =>
          cases v with
          | leaf a => cases a <;> simp [htx, h']; split <;> simp
          | node l es => simp [htx]; split <;> simp
  have h0 : (findSweeps c).isSome ↔ (fileSweeps c ⟨[], []⟩ (deepWalk [] c)).isSome := by
    unfold findSweeps
    cases fileSweeps c ⟨[], []⟩ (deepWalk [] c) <;> simp
  rw [h0, fileSweeps_total]
  constructor
  · intro h
    constructor
    · intro p hr hsw hrg
      obtain ⟨q, n, d, hf, _⟩ := h (p, .leaf (.str "sweep")) ((mem_deepWalk [] c p _).mpr ⟨p, rfl, hr⟩)
        (by simp [isSweepPath, Cfg.isStr, hrg])
      obtain ⟨_, rfl, hg, _⟩ := hf
      simp only [beforeSweep_none hsw] at hg
      exact reaches_no_sweep hr hc _ (pathGet_node hg)
    · rintro q ⟨hq, r, x, hr, hrg⟩
      obtain ⟨q', n, d, hf, htd⟩ := h (q ++ Key.str "sweep" :: r, x) ((mem_deepWalk [] c _ x).mpr ⟨_, rfl, hr⟩) (by
        simp only [isSweepPath, Bool.and_eq_true, Bool.or_eq_true, List.contains_iff_mem, isStr_iff, List.mem_append,
          List.mem_cons]
        refine ⟨Or.inl (Or.inr (Or.inl trivial)), ?_⟩
        rcases hrg with h2 | h2 | h2
        · exact Or.inl (Or.inl h2)
        · exact Or.inl (Or.inr (Or.inr h2))
        · exact Or.inr h2)
      have hq' : q' = q := by rw [hf.2.1]; exact beforeSweep_of hq
      subst hq'
      refine ⟨n, d, ?_, (htgt d).mp htd⟩
      exact filed_sweep hc ((mem_deepWalk [] c _ x).mpr ⟨_, rfl, hr⟩) hf
  · rintro ⟨h1, h2⟩ ⟨p, x⟩ he hs
    obtain ⟨p', hp, hr⟩ := (mem_deepWalk [] c p x).mp he
    simp only [List.nil_append] at hp
    subst hp
    have hs' := hs
    simp only [isSweepPath, Bool.and_eq_true, Bool.or_eq_true, List.contains_iff_mem, isStr_iff] at hs
    by_cases hm : Key.str "sweep" ∈ p
    · obtain ⟨r, hr'⟩ := beforeSweep_split hm
      have hsw : SweptAt c (beforeSweep p) := by
        refine ⟨beforeSweep_not_mem p, r, x, by rw [← hr']; exact hr, ?_⟩
        rcases hs.2 with h3 | h3
        · rw [hr'] at h3
          rcases List.mem_append.mp h3 with h3 | h3
          · exact Or.inl h3
          · rcases List.mem_cons.mp h3 with h3 | h3
            · simp at h3
            · exact Or.inr (Or.inl h3)
        · exact Or.inr (Or.inr h3)
      obtain ⟨n, d, hsd, htd⟩ := h2 _ hsw
      exact ⟨_, n, d, ⟨hs', rfl, pathGet_sweep hc.wf (beforeSweep_not_mem p) hsd.2.2, (sweptName_iff _ n).mpr hsd.2.1⟩,
        (htgt d).mpr htd⟩
    · exfalso
      have hx : x = .leaf (.str "sweep") := by
        rcases hs.1 with h | h
        · exact absurd h hm
        · exact h
      subst hx
      rcases hs.2 with h | h
      · exact h1 p hr hm h
      · simp at h

/-! ## A concrete settings tree -/

/-- `sigma` swept alone, `seed` and `cost_matrix.file` coupled to `sigma`, `alpha` swept alone. -/
private abbrev exTree : Cfg := D [
  (K "training", D [(K "seed", D [(K "sweep", D [(K "default", N 1), (K "coupled", .leaf (.bool true)),
    (K "target_name", .leaf (.str "sigma")), (K "range", L [N 1, N 2])])])]),
  (K "inputs", D [(K "cost_matrix", D [(K "file", D [(K "sweep", D [(K "coupled", .leaf (.bool true)),
    (K "target_name", .leaf (.str "sigma")), (K "range", L [N 7, N 8])])])]),
    (K "dims", D [(K "origin", L [N 3, N 4])])]),
  (K "model", D [(K "sigma", D [(K "sweep", D [(K "range", L [N 5, N 6])])]),
    (K "alpha", D [(K "sweep", D [(K "range", D [(K "start", N 0)]), (K "coupled", .leaf (.bool false))])])])]

/-- Checker for `StringKeys`. -/
private def stringKeysB (c : Cfg) : Bool :=
  (subtrees c).all fun (t : List Key × Cfg) =>
    match t.2 with
    | .node false es => es.all fun (e : Key × Cfg) => match e.1 with | .str _ => true | .idx _ => false
    | _ => true

private theorem stringKeys_of {c : Cfg} (h : stringKeysB c = true) : StringKeys c := by
  intro p es hp e he
  have := List.all_eq_true.mp h _ (mem_subtrees p c _ hp)
  simp only [List.all_eq_true] at this
  have h2 := this e he
  cases hk : e.1 with
  | str s => exact ⟨s, rfl⟩
  | idx i => rw [hk] at h2; simp at h2

private theorem exJson : JsonTree exTree := ⟨wellFormed_of_check _ (by decide +kernel), stringKeys_of (by decide +kernel)⟩

/-- The discovery on the example. -/
private theorem exFound : findSweeps exTree = some
    ⟨[(K "alpha", [K "model", K "alpha"])],
     [(K "sigma", [(K "sigma", [K "model", K "sigma"]), (K "seed", [K "training", K "seed"]),
        (K "cost_matrix", [K "inputs", K "cost_matrix", K "file"])])]⟩ := by rfl

private theorem exAlpha : Sweep exTree [K "model", K "alpha"] (K "alpha")
    [(K "range", D [(K "start", N 0)]), (K "coupled", .leaf (.bool false))] := by
  refine ⟨⟨by decide +kernel, [K "range", K "start"], N 0, ?_, Or.inr (Or.inl (by decide +kernel))⟩,
    Or.inl ⟨[K "model"], rfl, by decide +kernel⟩, rfl⟩
  have := (mem_deepWalk [] exTree [K "model", K "alpha", K "sweep", K "range", K "start"] (N 0)).mp
    (by simp [deepWalk, deepWalkItems, deepWalkItem, deepWalkElems, deepWalkElem])
  obtain ⟨q, hq, hr⟩ := this
  simp only [List.nil_append] at hq
  subst hq; exact hr

example : K "alpha" ∈ sweepParamNames
    ⟨[(K "alpha", [K "model", K "alpha"])],
     [(K "sigma", [(K "sigma", [K "model", K "sigma"]), (K "seed", [K "training", K "seed"]),
        (K "cost_matrix", [K "inputs", K "cost_matrix", K "file"])])]⟩ :=
  C140_names_complete_partial exTree exJson _ exFound _ _ _ exAlpha
    (Or.inl ((coupledTarget_none_iff _).mp (by decide +kernel)))

example : ∃ d, Sweep exTree [K "training", K "seed"] (K "seed") d ∧ SweptWith d "sigma" := by
  obtain ⟨s, h1, _, _, h2⟩ := C140_coupled_sound exTree exJson _ exFound (K "sigma") _ rfl
  cases h1
  rcases h2 (K "seed") [K "training", K "seed"] rfl with h | ⟨h, _⟩
  · exact h
  · exact absurd h (by decide +kernel)

example : (findSweeps exTree).isSome := by rw [exFound]; rfl

/-! ## Where the full statement fails -/

/-- Two uncoupled sweeps of the same name: only the later one is kept (here the swept files of two `margins` inputs share
nothing but their name). -/
theorem C140_same_name_false :
    findSweeps (D [(K "a", D [(K "bmax", D [(K "sweep", D [(K "range", L [N 1, N 2])])])]),
      (K "b", D [(K "bmax", D [(K "sweep", D [(K "range", L [N 3])])])])]) =
    some ⟨[(K "bmax", [K "b", K "bmax"])], []⟩ := rfl

/-- A sweep with an empty range is not discovered. -/
theorem C140_empty_range_false :
    findSweeps (D [(K "a", D [(K "sweep", D [(K "default", N 1), (K "range", L [])])])]) = some ⟨[], []⟩ := rfl

/-- A sweep coupled to a name that does not occur in the settings is dropped silently. -/
theorem C140_missing_target_false :
    findSweeps (D [(K "a", D [(K "sweep", D [(K "coupled", .leaf (.bool true)), (K "target_name", .leaf (.str "sigm")),
      (K "range", L [N 1, N 2])])])]) = some ⟨[], []⟩ := rfl

/-- The target of a coupled sweep gets the first path where its name occurs, even when that is not where it is swept. -/
theorem C140_target_path_false :
    (findSweeps (D [(K "plot", D [(K "alpha", N 1)]), (K "model", D [(K "alpha", D [(K "sweep", D [(K "range", L [N 1, N 2])])]),
      (K "seed", D [(K "sweep", D [(K "coupled", .leaf (.bool true)), (K "target_name", .leaf (.str "alpha")),
        (K "range", L [N 1, N 2])])])])])).map SweepPaths.coupled =
    some [(K "alpha", [(K "alpha", [K "plot", K "alpha"]), (K "seed", [K "model", K "seed"])])] := rfl

/-- A target swept through its `file` gets the path without `file`, where there is no sweep. -/
theorem C140_file_target_false :
    let c := D [(K "cost_matrix", D [(K "file", D [(K "sweep", D [(K "range", L [N 1, N 2])])])]),
      (K "seed", D [(K "sweep", D [(K "coupled", .leaf (.bool true)), (K "target_name", .leaf (.str "cost_matrix")),
        (K "range", L [N 1, N 2])])])]
    (findSweeps c).map SweepPaths.coupled =
      some [(K "cost_matrix", [(K "cost_matrix", [K "cost_matrix"]), (K "seed", [K "seed"])])] ∧
    pathGet c [K "cost_matrix", K "sweep"] = none := ⟨rfl, rfl⟩

/-- A chain `c → b → a` of coupled sweeps lists `b` twice. -/
theorem C140_chain_duplicates_false :
    (findSweeps (D [(K "a", D [(K "sweep", D [(K "range", L [N 1])])]),
      (K "b", D [(K "sweep", D [(K "coupled", .leaf (.bool true)), (K "target_name", .leaf (.str "a")), (K "range", L [N 1])])]),
      (K "c", D [(K "sweep", D [(K "coupled", .leaf (.bool true)), (K "target_name", .leaf (.str "b")),
        (K "range", L [N 1])])])])).map sweepParamNames = some [K "a", K "b", K "b", K "c"] := rfl

/-- A sweep below a list (one of several experiments, say) makes discovery raise. -/
theorem C140_list_raises_false :
    findSweeps (D [(K "experiments", L [D [(K "seed", D [(K "sweep", D [(K "range", L [N 1])])])]])]) = none := rfl

end GeNSIT
