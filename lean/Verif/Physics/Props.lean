import Verif.Physics.Lemmas

/-!
# C146, C147: parameters of the physics model, and what the settings record of them
-/

namespace GeNSIT

open Spec

/-- The first place where a name occurs in the settings, as found by `Config.path_find` (C31). -/
def Spec.firstPlace (s : Cfg) (p : String) : Option (List Key) := (pathFind (.str p) s [] []).2.head?

/-- The first occurrence of every parameter name, if there is one, is a plain value reached through dictionaries. -/
def Spec.ParametersPlain (s : Cfg) : Prop :=
  ∀ p ∈ hwNames, ∀ q, firstPlace s p = some q → PlainAt s q ∧ q.getLast? = some (.str p)

/-- The parameter is neither learned nor suggested by a trial, and `v` is given for it. -/
def Spec.TakenFrom (learned : List String) (trial : Option Suggested) (given : List (String × Atom)) (p : String)
    (v : Atom) : Prop :=
  p ∉ learned ∧ (trial.bind fun (t : Suggested) => t.get p) = none ∧ given.lookup p = some v

/-- What is known of the settings `t` after the parameters `done`. -/
structure HyperWritten (learned : List String) (trial : Option Suggested) (given : List (String × Atom)) (s : Cfg)
    (done : List String) (t : Cfg) : Prop where
  find : ∀ key cur all, pathFind key t cur all = pathFind key s cur all
  plain : ∀ q, PlainAt s q → PlainAt t q
  value : ∀ p ∈ done, ∀ v, TakenFrom learned trial given p v → ∀ q, firstPlace s p = some q → readAt t q = some (.leaf v)
  other : ∀ r, (∀ p ∈ done, ∀ v, TakenFrom learned trial given p v → ∀ q, firstPlace s p = some q → Unrelated q r) →
    readAt t r = readAt s r

theorem plain_unrelated {s : Cfg} {q r : List Key} (hq : PlainAt s q) (hr : PlainAt s r) (hne : q ≠ r) : Unrelated q r := by
  obtain ⟨_, ⟨a, ha⟩, _⟩ := hq
  obtain ⟨_, ⟨b, hb⟩, _⟩ := hr
  constructor
  · intro h
    rw [leaf_no_extension ha h (Ne.symm hne)] at hb; cases hb
  · intro h
    rw [leaf_no_extension hb h hne] at ha; cases ha

theorem hyperStep_written {learned : List String} {trial : Option Suggested} {given : List (String × Atom)} {s : Cfg}
    (hs : ParametersPlain s) {done : List String} {st : HyperState} (hw : HyperWritten learned trial given s done st.settings)
    {p : String} (hp : p ∈ hwNames) (hdone : ∀ d ∈ done, d ∈ hwNames) (hnew : p ∉ done)
    (hv : p ∉ learned → hyperValue learned trial given p ≠ none) :
    ∃ st', hyperStep learned trial given st p = some st' ∧ HyperWritten learned trial given s (done ++ [p]) st'.settings := by
  have keep : (∀ v, ¬ TakenFrom learned trial given p v) ∨ firstPlace s p = none →
      HyperWritten learned trial given s (done ++ [p]) st.settings := by
    intro h
    refine ⟨hw.find, hw.plain, ?_, ?_⟩
    · intro p' hp' v ht q hq
      rcases List.mem_append.mp hp' with hp' | hp'
      · exact hw.value p' hp' v ht q hq
      · rw [List.mem_singleton] at hp'; subst hp'
        rcases h with h | h
        · exact absurd ht (h v)
        · rw [h] at hq; cases hq
    · intro r hr
      exact hw.other r fun p' hp' => hr p' (List.mem_append_left _ hp')
  unfold hyperStep
  by_cases hl : p ∈ learned
  · simp only [hl, if_true]
    exact ⟨st, rfl, keep (Or.inl fun v h => h.1 hl)⟩
  simp only [hl, if_false]
  have hv := hv hl
  simp only [hyperValue, hl, if_false] at hv
  cases ht : trial.bind fun (t : Suggested) => t.get p with
  | some v => exact ⟨_, rfl, keep (Or.inl fun v h => by have := h.2.1; rw [ht] at this; cases this)⟩
  | none =>
    rw [ht] at hv
    cases hg : given.lookup p with
    | none => exact absurd hg hv
    | some v =>
      simp only
      rw [hw.find]
      cases hf : (pathFind (.str p) s [] []).2 with
      | nil => exact ⟨_, rfl, keep (Or.inr (by simp [firstPlace, hf]))⟩
      | cons q rest =>
        have hq : firstPlace s p = some q := by simp [firstPlace, hf]
        obtain ⟨hpl, hlast⟩ := hs p hp q hq
        have hpt := hw.plain q hpl
        cases q with
        | nil => exact absurd rfl hpl.1
        | cons k ks =>
          obtain ⟨s', h1, h2, h3, h4, h5⟩ := setPlain v ks k st.settings hpt
          simp only [h1]
          refine ⟨_, rfl, ?_, ?_, ?_, ?_⟩
          · intro key cur all; rw [h5, hw.find]
          · intro r hr
            have hrt := hw.plain r hr
            refine ⟨hr.1, ?_, ?_⟩
            · by_cases he : r = k :: ks
              · exact ⟨v, by rw [he]; exact h2⟩
              · have hu := plain_unrelated hpl hr (Ne.symm he)
                rw [h3 r he hu.1 hu.2]
                exact hrt.2.1
            · intro r' hr' hne
              obtain ⟨es, hes⟩ := hrt.2.2 r' hr' hne
              exact h4 r' es hes
          · intro p' hp' v' ht' q' hq'
            rcases List.mem_append.mp hp' with hp' | hp'
            · have hpq := hs p' (hdone p' hp') q' hq'
              have hne : k :: ks ≠ q' := by
                rintro rfl
                rw [hlast] at hpq
                have := hpq.2
                simp only [Option.some.injEq, Key.str.injEq] at this
                exact hnew (this ▸ hp')
              have hu := plain_unrelated hpl hpq.1 hne
              rw [h3 q' (Ne.symm hne) hu.1 hu.2]
              exact hw.value p' hp' v' ht' q' hq'
            · rw [List.mem_singleton] at hp'; subst hp'
              rw [hq] at hq'; cases hq'
              have : v' = v := by
                have := ht'.2.2; rw [hg] at this; exact (Option.some.inj this).symm
              rw [this]; exact h2
          · intro r hr
            have hu := hr p (List.mem_append_right _ (by simp)) v ⟨hl, ht, hg⟩ _ hq
            have hne : r ≠ k :: ks := by rintro rfl; exact hu.1 (List.prefix_refl _)
            rw [h3 r hne hu.1 hu.2]
            exact hw.other r fun p' hp' => hr p' (List.mem_append_left _ hp')

theorem hyperLoop_written {learned : List String} {trial : Option Suggested} {given : List (String × Atom)} {s : Cfg}
    (hs : ParametersPlain s) (ns : List String) : ∀ (done : List String) (st : HyperState),
    HyperWritten learned trial given s done st.settings → (∀ d ∈ done, d ∈ hwNames) → (∀ p ∈ ns, p ∈ hwNames) →
    (done ++ ns).Nodup → (∀ p ∈ ns, p ∉ learned → hyperValue learned trial given p ≠ none) →
    ∃ st', hyperLoop learned trial given st ns = some st' ∧ HyperWritten learned trial given s (done ++ ns) st'.settings := by
  induction ns with
  | nil => intro done st hw _ _ _ _; exact ⟨st, rfl, by simpa using hw⟩
  | cons p rest ih =>
    intro done st hw hd hns hnd hv
    have hnew : p ∉ done := by
      intro h
      exact (List.disjoint_of_nodup_append hnd) h (by simp)
    obtain ⟨st1, h1, hw1⟩ := hyperStep_written hs hw (hns p (by simp)) hd hnew (hv p (by simp))
    have hassoc : done ++ p :: rest = (done ++ [p]) ++ rest := by simp
    obtain ⟨st', h2, hw2⟩ := ih (done ++ [p]) st1 hw1 (by
      intro d hd'
      rcases List.mem_append.mp hd' with h | h
      · exact hd d h
      · rw [List.mem_singleton] at h; subst h; exact hns d (by simp)) (fun q hq => hns q (by simp [hq]))
      (by rw [← hassoc]; exact hnd) (fun q hq => hv q (by simp [hq]))
    exact ⟨st', by simp only [hyperLoop, h1, h2], by rw [hassoc]; exact hw2⟩

theorem hyperLoop_needs {learned : List String} {trial : Option Suggested} {given : List (String × Atom)} (ns : List String) :
    ∀ st st', hyperLoop learned trial given st ns = some st' → ∀ p ∈ ns, p ∉ learned → hyperValue learned trial given p ≠ none := by
  induction ns with
  | nil => intro st st' _ p hp; simp at hp
  | cons p rest ih =>
    intro st st' h q hq hl
    simp only [hyperLoop] at h
    split at h
    · cases h
    · next st1 h1 =>
      rcases List.mem_cons.mp hq with rfl | hq
      · unfold hyperStep at h1
        simp only [hl, if_false] at h1
        simp only [hyperValue, hl, if_false]
        cases ht : trial.bind fun (t : Suggested) => t.get q with
        | some v => simp
        | none =>
          rw [ht] at h1
          simp only at h1 ⊢
          cases hg : given.lookup q with
          | none => rw [hg] at h1; cases h1
          | some v => simp
      · exact ih st1 st' h q hq hl

theorem build_params {learned : List String} {trial : Option Suggested} {given : List (String × Atom)} {s : Cfg} {st : HyperState}
    (h : buildHyper learned trial given s = some st) (p : String) (hp : p ∈ hwNames) :
    st.params.lookup p = hyperValue learned trial given p := by
  unfold buildHyper at h
  split at h
  · rw [hyperLoop_params hwNames _ _ h p]
    by_cases hl : p ∈ learned
    · simp [hl, hyperValue]
    · simp [hp, hl]
  · cases h

theorem build_written {learned : List String} {trial : Option Suggested} {given : List (String × Atom)} {s : Cfg} {st : HyperState}
    (hs : ParametersPlain s) (h : buildHyper learned trial given s = some st) :
    HyperWritten learned trial given s hwNames st.settings := by
  unfold buildHyper at h
  split at h
  · have hinit : HyperWritten learned trial given s [] s :=
      ⟨fun _ _ _ => rfl, fun _ hq => hq, fun p hp => by simp at hp, fun _ _ => rfl⟩
    obtain ⟨st', h1, h2⟩ := hyperLoop_written hs hwNames [] ⟨[], s⟩ hinit (by simp) (by simp) (by decide +kernel)
      (hyperLoop_needs hwNames _ _ h)
    rw [h] at h1; cases h1
    simpa using h2
  · cases h

theorem parametersOf_lookup {s : Cfg} (hw : WellFormed s) (m p : String) :
    (parametersOf s m).lookup (.str p) = readAt s [.str m, .str "parameters", .str p] := by
  have nolist : ∀ (r : List Key) (es : List (Key × Cfg)) (n : String), readAt s r = some (.node true es) →
      es.lookup (.str n) = none := by
    intro r es n hr
    have hk := (hw r true es hr).2 rfl
    have : Key.str n ∉ es.map Prod.fst := by rw [hk]; simp
    cases hl : es.lookup (.str n) with
    | none => rfl
    | some x =>
      exfalso
      apply this
      clear hr hk this
      induction es with
      | nil => simp at hl
      | cons e rest ih =>
        obtain ⟨k, v⟩ := e
        by_cases hke : Key.str n = k
        · simp [hke]
        · have hb : (Key.str n == k) = false := by simpa using hke
          simp only [List.lookup, hb] at hl
          simp only [List.map_cons, List.mem_cons]
          exact Or.inr (ih hl)
  unfold parametersOf
  cases s with
  | leaf a => rfl
  | node l es =>
    cases l with
    | true =>
      simp only [readAt, nolist [] es m rfl]
      rfl
    | false =>
      simp only [readAt]
      cases h1 : es.lookup (.str m) with
      | none => rfl
      | some x =>
        cases x with
        | leaf a => rfl
        | node l fs =>
          have r1 : readAt (.node false es) [.str m] = some (.node l fs) := by simp only [readAt, h1]
          cases l with
          | true => simp only [readAt, nolist _ fs "parameters" r1]; rfl
          | false =>
            simp only [readAt]
            cases h2 : fs.lookup (.str "parameters") with
            | none => rfl
            | some y =>
              cases y with
              | leaf a => rfl
              | node l ps =>
                have r2 : readAt (.node false es) [.str m, .str "parameters"] = some (.node l ps) := by
                  simp only [readAt, h1, h2]
                cases l with
                | true => simp only [readAt, nolist _ ps p r2]; rfl
                | false => simp only [readAt]; cases ps.lookup (.str p) <;> rfl

theorem readParameters_lookup {s : Cfg} {dflt : String → Atom} {learned : List String} (ns : List String) :
    ∀ l, readParameters s dflt learned ns = some l → ∀ p, l.lookup p =
      if p ∈ ns ∧ p ∉ learned then (match parameterSetting s dflt p with | .leaf a => some a | .node _ _ => none) else none := by
  induction ns with
  | nil => intro l h p; simp only [readParameters, Option.some.injEq] at h; subst h; simp
  | cons n rest ih =>
    intro l h p
    simp only [readParameters] at h
    by_cases hn : n ∈ learned
    · simp only [hn, if_true] at h
      rw [ih l h p]
      by_cases hp : p = n
      · subst hp; simp [hn]
      · simp [hp]
    · simp only [hn, if_false] at h
      split at h
      · next a ha =>
        simp only [Option.map_eq_some_iff] at h
        obtain ⟨l', h1, rfl⟩ := h
        by_cases hp : p = n
        · subst hp; simp [List.lookup, hn, ha]
        · have hb : (p == n) = false := by simpa using hp
          simp only [List.lookup, hb]
          rw [ih l' h1 p]
          simp [hp]
      · cases h

theorem readParameters_no_node {s : Cfg} {dflt : String → Atom} {learned : List String} (ns : List String) :
    ∀ l, readParameters s dflt learned ns = some l → ∀ p ∈ ns, p ∉ learned → ∃ a, parameterSetting s dflt p = .leaf a := by
  induction ns with
  | nil => intro l _ p hp; simp at hp
  | cons n rest ih =>
    intro l h p hp hl
    simp only [readParameters] at h
    by_cases hn : n ∈ learned
    · simp only [hn, if_true] at h
      rcases List.mem_cons.mp hp with rfl | hp
      · exact absurd hn hl
      · exact ih l h p hp hl
    · simp only [hn, if_false] at h
      split at h
      · next a ha =>
        simp only [Option.map_eq_some_iff] at h
        obtain ⟨l', h1, rfl⟩ := h
        rcases List.mem_cons.mp hp with rfl | hp
        · exact ⟨a, ha⟩
        · exact ih l' h1 p hp hl
      · cases h

theorem trueParameters_lookup {s : Cfg} {dflt : String → Atom} {learned : List String} {delta kappa : Atom}
    {given : List (String × Atom)} (h : trueParameters s dflt learned delta kappa = some given) {p : String} (hp : p ∈ hwNames)
    (hl : p ∉ learned) (h1 : p ≠ "delta") (h2 : p ≠ "kappa") :
    ∃ a, parameterSetting s dflt p = .leaf a ∧ given.lookup p = some a := by
  simp only [trueParameters, Option.map_eq_some_iff] at h
  obtain ⟨l, hr, rfl⟩ := h
  obtain ⟨a, ha⟩ := readParameters_no_node hwNames l hr p hp hl
  refine ⟨a, ha, ?_⟩
  rw [lookup_inSet, lookup_inSet]
  simp only [h1, h2, if_false]
  rw [readParameters_lookup hwNames l hr p]
  simp [hp, hl, ha]

/-! ## C146 -/

/-- A learned parameter has no fixed value. -/
theorem C146_learned (learned : List String) (trial : Option Suggested) (given : List (String × Atom)) (s : Cfg) (st : HyperState)
    (h : buildHyper learned trial given s = some st) (p : String) (hp : p ∈ learned) : st.params.lookup p = none := by
  have hsub : p ∈ hwNames := by
    unfold buildHyper at h
    split at h
    · next hall =>
      have := List.all_eq_true.mp hall p hp
      simp [hwLearnable] at this
      rcases this with h | h | h | h | h | h | h <;> subst h <;> decide +kernel
    · cases h
  rw [build_params h p hsub]
  simp [hyperValue, hp]

/-- Without a trial, every parameter that is not learned, apart from `delta` and `kappa`, has the value configured among
the parameters of the Harris-Wilson model, or else the one among the parameters of the spatial interaction model, or else
its default. -/
theorem C146_configured (s : Cfg) (hw : WellFormed s) (dflt : String → Atom) (learned : List String) (delta kappa : Atom)
    (given : List (String × Atom)) (hg : trueParameters s dflt learned delta kappa = some given) (st : HyperState)
    (h : buildHyper learned none given s = some st) (p : String) (hp : p ∈ hwNames) (hl : p ∉ learned)
    (h1 : p ≠ "delta") (h2 : p ≠ "kappa") :
    (∀ a, readAt s [.str "harris_wilson_model", .str "parameters", .str p] = some (.leaf a) →
      st.params.lookup p = some a) ∧
    (readAt s [.str "harris_wilson_model", .str "parameters", .str p] = none → ∀ a,
      readAt s [.str "spatial_interaction_model", .str "parameters", .str p] = some (.leaf a) →
        st.params.lookup p = some a) ∧
    (readAt s [.str "harris_wilson_model", .str "parameters", .str p] = none →
      readAt s [.str "spatial_interaction_model", .str "parameters", .str p] = none →
        st.params.lookup p = some (dflt p)) := by
  obtain ⟨a, ha, hga⟩ := trueParameters_lookup hg hp hl h1 h2
  have hv : st.params.lookup p = some a := by
    rw [build_params h p hp]
    simp [hyperValue, hl, hga]
  unfold parameterSetting at ha
  rw [parametersOf_lookup hw, parametersOf_lookup hw] at ha
  refine ⟨?_, ?_, ?_⟩
  · intro b hb
    rw [hb] at ha
    simp only [Cfg.leaf.injEq] at ha
    rw [hv, ha]
  · intro hn b hb
    rw [hn, hb] at ha
    simp only [Cfg.leaf.injEq] at ha
    rw [hv, ha]
  · intro hn hn2
    rw [hn, hn2] at ha
    simp only [Cfg.leaf.injEq] at ha
    rw [hv, ha]

/-- `delta` and `kappa` have the values derived from the data (C114), unless they are learned. -/
theorem C146_delta_kappa (s : Cfg) (dflt : String → Atom) (learned : List String) (delta kappa : Atom)
    (given : List (String × Atom)) (hg : trueParameters s dflt learned delta kappa = some given) (trial : Option Suggested)
    (st : HyperState) (h : buildHyper learned trial given s = some st) :
    ("delta" ∉ learned → st.params.lookup "delta" = some delta) ∧ ("kappa" ∉ learned → st.params.lookup "kappa" = some kappa) := by
  simp only [trueParameters, Option.map_eq_some_iff] at hg
  obtain ⟨l, hr, rfl⟩ := hg
  have h1 : (trial.bind fun (t : Suggested) => t.get "delta") = none := by cases trial <;> simp [Suggested.get]
  have h2 : (trial.bind fun (t : Suggested) => t.get "kappa") = none := by cases trial <;> simp [Suggested.get]
  constructor
  · intro hl
    rw [build_params h "delta" (by decide +kernel)]
    simp [hyperValue, hl, h1, lookup_inSet]
  · intro hl
    rw [build_params h "kappa" (by decide +kernel)]
    simp [hyperValue, hl, h2, lookup_inSet]

/-- In a trial the suggested values take precedence over the configured ones. -/
theorem C146_trial (learned : List String) (t : Suggested) (given : List (String × Atom)) (s : Cfg) (st : HyperState)
    (h : buildHyper learned (some t) given s = some st) :
    st.params.lookup "noise_percentage" = some t.noisePercentage ∧ st.params.lookup "dt" = some t.dt ∧
      ("epsilon" ∉ learned → st.params.lookup "epsilon" = some t.epsilon) := by
  have hsub : ∀ p ∈ learned, p ∈ hwLearnable := by
    unfold buildHyper at h
    split at h
    · next hall =>
      intro p hp
      simpa using List.all_eq_true.mp hall p hp
    · cases h
  have n1 : "noise_percentage" ∉ learned := fun hl => by simpa [hwLearnable] using hsub _ hl
  have n2 : "dt" ∉ learned := fun hl => by simpa [hwLearnable] using hsub _ hl
  refine ⟨?_, ?_, ?_⟩
  · rw [build_params h _ (by decide +kernel)]; simp [hyperValue, n1, Suggested.get]
  · rw [build_params h _ (by decide +kernel)]; simp [hyperValue, n2, Suggested.get]
  · intro hl
    rw [build_params h _ (by decide +kernel)]; simp [hyperValue, hl, Suggested.get]

/-- Exactly when the physics model can be built: only learnable parameters are learned and each other parameter is suggested
or given. -/
theorem C146_builds_iff (learned : List String) (trial : Option Suggested) (given : List (String × Atom)) (s : Cfg)
    (hs : ParametersPlain s) :
    (buildHyper learned trial given s).isSome ↔
      (∀ p ∈ learned, p ∈ hwLearnable) ∧ ∀ p ∈ hwNames, p ∉ learned →
        (∃ t v, trial = some t ∧ t.get p = some v) ∨ ∃ v, given.lookup p = some v := by
  have hval : ∀ p, p ∉ learned → (hyperValue learned trial given p ≠ none ↔
      ((∃ t v, trial = some t ∧ t.get p = some v) ∨ ∃ v, given.lookup p = some v)) := by
    intro p hl
    simp only [hyperValue, hl, if_false]
    cases trial with
    | none =>
      simp only [Option.bind_none]
      rw [Option.ne_none_iff_exists']
      simp
    | some t =>
      cases ht : t.get p with
      | none =>
        simp only [Option.bind_some, ht]
        rw [Option.ne_none_iff_exists']
        simp [ht]
      | some v => simp [ht]
  constructor
  · intro h
    obtain ⟨st, hst⟩ := Option.isSome_iff_exists.mp h
    unfold buildHyper at hst
    split at hst
    · next hall =>
      refine ⟨fun p hp => by simpa using List.all_eq_true.mp hall p hp, fun p hp hl => ?_⟩
      exact (hval p hl).mp (hyperLoop_needs hwNames _ _ hst p hp hl)
    · cases hst
  · rintro ⟨h1, h2⟩
    have hall : learned.all (fun p => hwLearnable.contains p) = true := by
      rw [List.all_eq_true]
      intro p hp
      simpa using h1 p hp
    have hinit : HyperWritten learned trial given s [] s :=
      ⟨fun _ _ _ => rfl, fun _ hq => hq, fun p hp => by simp at hp, fun _ _ => rfl⟩
    obtain ⟨st', h3, _⟩ := hyperLoop_written hs hwNames [] ⟨[], s⟩ hinit (by simp) (by simp) (by decide +kernel)
      (fun p hp hl => (hval p hl).mpr (h2 p hp hl))
    rw [buildHyper, if_pos hall, h3]; rfl

/-- Without given parameters the physics model cannot be built, whatever the settings say. -/
theorem C146_settings_only_false (learned : List String) (s : Cfg) : buildHyper learned none [] s = none := by
  cases h : buildHyper learned none [] s with
  | none => rfl
  | some st =>
    exfalso
    unfold buildHyper at h
    split at h
    · next hall =>
      have hl : "dt" ∉ learned := by
        intro hl
        have := List.all_eq_true.mp hall _ hl
        simp [hwLearnable] at this
      exact hyperLoop_needs hwNames _ _ h "dt" (by decide +kernel) hl (by simp [hyperValue, hl])
    · cases h

/-- The step size of the settings (`harris_wilson_model.dt`, where the schema and all shipped configurations put it) is never
used: without a `dt` among the parameters the default step is used. -/
theorem C146_step_ignored (s : Cfg) (hw : WellFormed s) (dflt : String → Atom) (learned : List String) (delta kappa : Atom)
    (given : List (String × Atom)) (hg : trueParameters s dflt learned delta kappa = some given) (st : HyperState)
    (h : buildHyper learned none given s = some st)
    (h1 : readAt s [.str "harris_wilson_model", .str "parameters", .str "dt"] = none)
    (h2 : readAt s [.str "spatial_interaction_model", .str "parameters", .str "dt"] = none) :
    st.params.lookup "dt" = some (dflt "dt") := by
  have hl : "dt" ∉ learned := by
    intro hl
    have := C146_learned learned none given s st h "dt" hl
    unfold buildHyper at h
    split at h
    · next hall =>
      have := List.all_eq_true.mp hall _ hl
      simp [hwLearnable] at this
    · cases h
  exact (C146_configured s hw dflt learned delta kappa given hg st h "dt" (by decide +kernel) hl (by decide) (by decide)).2.2 h1 h2

/-- Consequently the training loops, which read the step size from the settings afterwards, use the default step whatever
value the user put there. -/
theorem C146_training_step (s : Cfg) (hw : WellFormed s) (hs : ParametersPlain s) (dflt : String → Atom) (learned : List String)
    (delta kappa : Atom) (given : List (String × Atom)) (hg : trueParameters s dflt learned delta kappa = some given)
    (st : HyperState) (h : buildHyper learned none given s = some st)
    (hfirst : firstPlace s "dt" = some [.str "harris_wilson_model", .str "dt"])
    (h1 : readAt s [.str "harris_wilson_model", .str "parameters", .str "dt"] = none)
    (h2 : readAt s [.str "spatial_interaction_model", .str "parameters", .str "dt"] = none) :
    trainingStep st.settings = some (.leaf (dflt "dt")) := by
  have hp := C146_step_ignored s hw dflt learned delta kappa given hg st h h1 h2
  rw [build_params h "dt" (by decide +kernel)] at hp
  have hl : "dt" ∉ learned := by
    intro hl; simp [hyperValue, hl] at hp
  have hgv : given.lookup "dt" = some (dflt "dt") := by simpa [hyperValue, hl] using hp
  exact (build_written hs h).value "dt" (by decide +kernel) _ ⟨hl, rfl, hgv⟩ _ hfirst

/-- In a trial the training loops use the configured step, not the suggested one. -/
theorem C146_training_step_trial (s : Cfg) (hs : ParametersPlain s) (learned : List String) (t : Suggested)
    (given : List (String × Atom)) (st : HyperState) (h : buildHyper learned (some t) given s = some st)
    (hfirst : firstPlace s "dt" = some [.str "harris_wilson_model", .str "dt"]) :
    trainingStep st.settings = trainingStep s := by
  refine (build_written hs h).other _ ?_
  intro p hp v ht q hq
  have hpd : p ≠ "dt" := by
    rintro rfl
    have := ht.2.1
    simp [Suggested.get] at this
  obtain ⟨a1, a2⟩ := hs p hp q hq
  obtain ⟨b1, b2⟩ := hs "dt" (by decide +kernel) _ hfirst
  refine plain_unrelated a1 b1 ?_
  rintro rfl
  simp at a2
  exact hpd a2.symm

/-! ## C147 -/

/-- After the construction the settings hold, at the first place where the name of a parameter occurs, the value that the
model uses; parameters suggested by a trial or learned excepted. -/
theorem C147_recorded_partial (learned : List String) (trial : Option Suggested) (given : List (String × Atom)) (s : Cfg)
    (hs : ParametersPlain s) (st : HyperState) (h : buildHyper learned trial given s = some st) (p : String) (hp : p ∈ hwNames)
    (hl : p ∉ learned) (ht : ∀ t, trial = some t → t.get p = none) (q : List Key) (hq : firstPlace s p = some q) :
    ∃ v, st.params.lookup p = some v ∧ readAt st.settings q = some (.leaf v) := by
  have hb : (trial.bind fun (t : Suggested) => t.get p) = none := by
    cases trial with
    | none => rfl
    | some t => exact ht t rfl
  have hn : hyperValue learned trial given p ≠ none := by
    have h' := h
    unfold buildHyper at h'
    split at h'
    · exact hyperLoop_needs hwNames _ _ h' p hp hl
    · cases h'
  simp only [hyperValue, hl, if_false, hb] at hn
  obtain ⟨v, hv⟩ := Option.ne_none_iff_exists'.mp hn
  refine ⟨v, ?_, (build_written hs h).value p hp v ⟨hl, hb, hv⟩ q hq⟩
  rw [build_params h p hp]
  simp [hyperValue, hl, hb, hv]

/-- Everything else in the settings stays as it was. -/
theorem C147_others_unchanged_partial (learned : List String) (trial : Option Suggested) (given : List (String × Atom)) (s : Cfg)
    (hs : ParametersPlain s) (st : HyperState) (h : buildHyper learned trial given s = some st) (r : List Key)
    (hr : ∀ p ∈ hwNames, p ∉ learned → ∀ q, firstPlace s p = some q → Unrelated q r) :
    readAt st.settings r = readAt s r :=
  (build_written hs h).other r fun p hp _ ht q hq => hr p hp ht.1 q hq

/-! ### A configuration -/

private abbrev K (n : String) : Key := .str n
private abbrev N (x : Int) : Cfg := .leaf (.num x)
private abbrev D (es : List (Key × Cfg)) : Cfg := .node false es

/-- Settings with a step size of 5 (codes of numbers), `sigma` 2 and `bmax` 7. -/
def exPhysics : Cfg := D [(K "inputs", D [(K "dataset", .leaf (.str "x"))]),
  (K "spatial_interaction_model", D [(K "parameters", D [(K "bmax", N 7)])]),
  (K "harris_wilson_model", D [(K "dt", N 5), (K "parameters", D [(K "sigma", N 2), (K "epsilon", N 3)])])]

/-- Defaults, coded as 100 plus the position. -/
def exDefault (p : String) : Atom := .num (100 + (hwNames.idxOf p : Int))

def exGiven : List (String × Atom) :=
  [("delta", .num 1), ("kappa", .num 4), ("epsilon", .num 3), ("bmax", .num 7), ("noise_percentage", .num 106),
   ("sigma", .num 2), ("dt", .num 108)]

theorem exGiven_eq : trueParameters exPhysics exDefault ["alpha", "beta"] (.num 1) (.num 4) = some exGiven := by decide +kernel

theorem exPhysics_wf : WellFormed exPhysics := wellFormed_of_check _ rfl

theorem exPlain_of {s : Cfg} {q : List Key} {a : Atom} (h0 : q ≠ []) (h1 : readAt s q = some (.leaf a))
    (h2 : ∀ r ∈ q.inits, r ≠ q → ∃ es, readAt s r = some (.node false es)) : PlainAt s q :=
  ⟨h0, ⟨a, h1⟩, fun r hr hne => h2 r ((List.mem_inits _ _).mpr hr) hne⟩

theorem exPhysics_plain : ParametersPlain exPhysics := by
  intro p hp q hq
  have hall : ∀ p ∈ hwNames, firstPlace exPhysics p = none ∨ p ∈ ["bmax", "dt", "sigma", "epsilon"] := by
    intro p hp
    simp only [hwNames, List.mem_cons, List.not_mem_nil, or_false] at hp
    rcases hp with rfl | rfl | rfl | rfl | rfl | rfl | rfl | rfl | rfl <;> first | exact Or.inl rfl | exact Or.inr (by simp)
  rcases hall p hp with h | h
  · rw [h] at hq; cases hq
  · simp only [List.mem_cons, List.not_mem_nil, or_false] at h
    rcases h with rfl | rfl | rfl | rfl
    · have : firstPlace exPhysics "bmax" = some [K "spatial_interaction_model", K "parameters", K "bmax"] := rfl
      rw [this] at hq; cases hq
      refine ⟨exPlain_of (by simp) (a := .num 7) rfl ?_, rfl⟩
      intro r hr hne
      simp only [List.inits, List.map_cons, List.map_nil, List.mem_cons, List.not_mem_nil, or_false] at hr
      rcases hr with rfl | rfl | rfl | rfl
      · exact ⟨_, rfl⟩
      · exact ⟨_, rfl⟩
      · exact ⟨_, rfl⟩
      · exact absurd rfl hne
    · have : firstPlace exPhysics "dt" = some [K "harris_wilson_model", K "dt"] := rfl
      rw [this] at hq; cases hq
      refine ⟨exPlain_of (by simp) (a := .num 5) rfl ?_, rfl⟩
      intro r hr hne
      simp only [List.inits, List.map_cons, List.map_nil, List.mem_cons, List.not_mem_nil, or_false] at hr
      rcases hr with rfl | rfl | rfl
      · exact ⟨_, rfl⟩
      · exact ⟨_, rfl⟩
      · exact absurd rfl hne
    · have : firstPlace exPhysics "sigma" = some [K "harris_wilson_model", K "parameters", K "sigma"] := rfl
      rw [this] at hq; cases hq
      refine ⟨exPlain_of (by simp) (a := .num 2) rfl ?_, rfl⟩
      intro r hr hne
      simp only [List.inits, List.map_cons, List.map_nil, List.mem_cons, List.not_mem_nil, or_false] at hr
      rcases hr with rfl | rfl | rfl | rfl
      · exact ⟨_, rfl⟩
      · exact ⟨_, rfl⟩
      · exact ⟨_, rfl⟩
      · exact absurd rfl hne
    · have : firstPlace exPhysics "epsilon" = some [K "harris_wilson_model", K "parameters", K "epsilon"] := rfl
      rw [this] at hq; cases hq
      refine ⟨exPlain_of (by simp) (a := .num 3) rfl ?_, rfl⟩
      intro r hr hne
      simp only [List.inits, List.map_cons, List.map_nil, List.mem_cons, List.not_mem_nil, or_false] at hr
      rcases hr with rfl | rfl | rfl | rfl
      · exact ⟨_, rfl⟩
      · exact ⟨_, rfl⟩
      · exact ⟨_, rfl⟩
      · exact absurd rfl hne

theorem exBuild : ∃ st, buildHyper ["alpha", "beta"] none exGiven exPhysics = some st ∧
    st.params.lookup "sigma" = some (.num 2) ∧ st.params.lookup "alpha" = none := ⟨_, rfl, rfl, rfl⟩

example : (buildHyper ["alpha", "beta"] none exGiven exPhysics).isSome :=
  (C146_builds_iff _ _ _ _ exPhysics_plain).mpr ⟨by simp [hwLearnable], by
    intro p hp hl
    right
    simp only [hwNames, List.mem_cons, List.not_mem_nil, or_false] at hp
    rcases hp with rfl | rfl | rfl | rfl | rfl | rfl | rfl | rfl | rfl <;>
      first | exact ⟨_, rfl⟩ | exact absurd (by simp) hl⟩

/-- The configured step of 5 is replaced by the default, in the model and in the settings. -/
theorem C146_step_false : ∃ st, buildHyper ["alpha", "beta"] none exGiven exPhysics = some st ∧
    trainingStep exPhysics = some (N 5) ∧ st.params.lookup "dt" = some (exDefault "dt") ∧
    trainingStep st.settings = some (.leaf (exDefault "dt")) := by
  obtain ⟨st, h, _⟩ := exBuild
  exact ⟨st, h, rfl, C146_step_ignored _ exPhysics_wf _ _ _ _ _ exGiven_eq st h rfl rfl,
    C146_training_step _ exPhysics_wf exPhysics_plain _ _ _ _ _ exGiven_eq st h rfl rfl rfl⟩

example : ∃ st, buildHyper ["alpha", "beta"] (some ⟨.num 8, .num 9, .num 10⟩) exGiven exPhysics = some st ∧
    st.params.lookup "dt" = some (.num 10) ∧ trainingStep st.settings = some (N 5) := ⟨_, rfl, rfl, rfl⟩

example : ∃ st v, buildHyper ["alpha", "beta"] none exGiven exPhysics = some st ∧ st.params.lookup "sigma" = some v ∧
    readAt st.settings [K "harris_wilson_model", K "parameters", K "sigma"] = some (.leaf v) := by
  obtain ⟨st, h, _⟩ := exBuild
  obtain ⟨v, h1, h2⟩ := C147_recorded_partial _ _ _ _ exPhysics_plain st h "sigma" (by decide +kernel) (by simp) (by simp) _ rfl
  exact ⟨st, v, h, h1, h2⟩

/-- Values suggested by a trial are not recorded in the settings. -/
theorem C147_trial_false : ∃ st, buildHyper ["alpha", "beta"] (some ⟨.num 8, .num 9, .num 10⟩) exGiven exPhysics = some st ∧
    st.params.lookup "epsilon" = some (.num 8) ∧
    readAt st.settings [K "harris_wilson_model", K "parameters", K "epsilon"] = some (N 3) := ⟨_, rfl, rfl, rfl⟩

/-- When the name of a parameter occurs earlier in the settings, that other setting is overwritten and the parameter's own
entry keeps its value, even one that is not used (here `delta = -1`, meaning: derive it from the data). -/
theorem C147_other_setting_false :
    let s := D [(K "plot", D [(K "delta", N 50)]), (K "harris_wilson_model", D [(K "parameters", D [(K "delta", N (-1))])])]
    ∃ st, buildHyper ["alpha", "beta"] none exGiven s = some st ∧ st.params.lookup "delta" = some (.num 1) ∧
      readAt st.settings [K "plot", K "delta"] = some (N 1) ∧
      readAt st.settings [K "harris_wilson_model", K "parameters", K "delta"] = some (N (-1)) := ⟨_, rfl, rfl, rfl, rfl⟩

/-- When the first occurrence lies below a list, the construction raises. -/
theorem C147_list_false :
    buildHyper ["alpha", "beta"] none exGiven
      (D [(K "experiments", .node true [(.idx 0, D [(K "grid", D [(K "sigma", N 1)])])]),
        (K "harris_wilson_model", D [(K "parameters", D [(K "sigma", N 2)])])]) = none := rfl

end GeNSIT
