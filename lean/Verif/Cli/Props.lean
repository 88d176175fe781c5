import Verif.Cli.Lemmas

/-! # C106: command-line options and the configuration -/

set_option linter.unusedSimpArgs false

namespace GeNSIT

open Spec

/-- What the last steps of `setup_experiments` do. -/
theorem setup_readAt {auto : Cfg} {cmd : Command} {given : List (String × Cfg)} {c c' : Cfg}
    (h : setupConfig auto cmd given c = some c') :
    (∃ dev, updateDevice auto (((commandSettings cmd given).lookup (.str "device")).getD (.leaf (.str "cpu"))) = some dev ∧
      readAt c' [.str "inputs", .str "device"] = some dev) ∧
    (∀ p, Unrelated p [.str "inputs", .str "device"] → readAt c' p = readAt (deepUpdates c (commandSettings cmd given)) p) ∧
    (readAt c' []).map outline = (readAt (deepUpdates c (commandSettings cmd given)) []).map outline := by
  unfold setupConfig at h
  simp only [Option.bind_eq_bind, Option.bind_eq_some_iff] at h
  obtain ⟨inp, hi, dev, hd, inp', hs, hc⟩ := h
  obtain ⟨l, es, hm, hl⟩ := getItem_node hi hs
  have hc' : c' = .node l (setEntry es (.str "inputs") inp') := by
    rw [hm] at hc
    cases l
    · simpa [Cfg.setItem] using hc.symm
    · simp only [Cfg.setItem] at hc; split at hc <;> simp_all
  obtain ⟨l2, es2, rfl, hi'⟩ : ∃ l2 es2, inp = .node l2 es2 ∧ inp' = .node l2 (setEntry es2 (.str "device") dev) := by
    cases inp with
    | leaf a => simp [Cfg.setItem] at hs
    | node l2 es2 =>
      refine ⟨l2, es2, rfl, ?_⟩
      cases l2
      · simpa [Cfg.setItem] using hs.symm
      · simp only [Cfg.setItem] at hs; split at hs <;> simp_all
  refine ⟨⟨dev, hd, ?_⟩, ?_, ?_⟩
  · rw [hc', hi']
    simp [readAt, lookup_setEntry_self, readAt_nil]
  · intro p hp
    rw [hm, hc']
    cases p with
    | nil => exact absurd List.nil_prefix hp.1
    | cons k ks =>
      by_cases hk : k = .str "inputs"
      · subst hk
        simp only [readAt, lookup_setEntry_self, hl, hi']
        cases ks with
        | nil => exact absurd (by simp) hp.1
        | cons k2 ks2 =>
          by_cases hk2 : k2 = .str "device"
          · subst hk2; exact absurd (by simp) hp.2
          · simp only [readAt, lookup_setEntry_ne _ _ hk2]
      · simp only [readAt, lookup_setEntry_ne _ _ hk]
  · rw [hm, hc']
    simp only [readAt_nil, Option.map_some, outline]
    rw [setEntry_keys, if_pos ((lookup_isSome_iff _ _).mp (by simp [hl])), List.append_nil]

theorem device_mem (cmd : Command) (given : List (String × Cfg)) : Overwritten cmd given (.str "device") :=
  Or.inl ⟨"device", by cases cmd <;> decide +kernel, rfl⟩

theorem inputs_not_setting (cmd : Command) : ∀ s ∈ optionNames cmd ++ alwaysOverwritten cmd, settingOf s ≠ "inputs" := by
  cases cmd <;> decide +kernel

/-- A setting that the command overwrites holds the value of the command's settings. -/
theorem setup_stores {auto : Cfg} {cmd : Command} {given : List (String × Cfg)} {c c' : Cfg}
    (h : setupConfig auto cmd given c = some c') (hw : WellFormed c) {t : String} {v : Cfg} (ht : t ≠ "inputs")
    (hm : (Key.str t, v) ∈ commandSettings cmd given) (hdev : t = "device" → updateDevice auto v = some v ∨ updateDevice auto v = none)
    (hwv : WellFormed v) {q : List Key} (hfree : ∀ k, Overwritten cmd given k → k ∉ q ∧ KeyFree k v)
    (hn : NoNestedLists c q) (hx : (readAt c (q ++ [.str t])).isSome) : readAt c' (q ++ [.str t]) = some v := by
  obtain ⟨⟨dev, hd1, hd2⟩, hu, _⟩ := setup_readAt h
  by_cases hqd : q ++ [Key.str t] = [.str "inputs", .str "device"]
  · have : t = "device" := by
      have := congrArg List.getLast? hqd
      simpa using this
    rw [hqd, hd2]
    subst this
    rw [lookup_of_mem (commandSettings_nodup cmd given) hm, Option.getD_some] at hd1
    rcases hdev rfl with h1 | h1
    · rw [h1] at hd1; exact hd1.symm
    · rw [h1] at hd1; exact absurd hd1 (by simp)
  · rw [hu]
    · rw [readAt_append] at hx
      cases hq : readAt c q with
      | none => rw [hq] at hx; simp at hx
      | some y =>
        rw [hq] at hx
        simp only [Option.bind_some] at hx
        cases y with
        | leaf a => simp [readAt] at hx
        | node l es =>
          have hk : Key.str t ∈ es.map Prod.fst := by
            rw [← lookup_isSome_iff]
            cases hl : es.lookup (.str t) with
            | none => simp [readAt, hl] at hx
            | some z => rfl
          cases l with
          | true =>
            have h1 := (hw q true es hq).2 rfl
            rw [h1] at hk; simp at hk
          | false =>
            refine deepUpdates_sets _ c (commandSettings_nodup cmd given) hm
              (fun e he => (hfree _ (overwritten_of_mem cmd given he)).1) hn (ks := es.map Prod.fst) ?_ hk hwv
              (fun e he => (hfree _ (overwritten_of_mem cmd given he)).2)
            rw [hq]; rfl
    · have hdq := (hfree _ (device_mem cmd given)).1
      constructor
      · intro hp
        rcases List.prefix_cons_iff.mp hp with h1 | ⟨r, h1, h2⟩
        · simp at h1
        · rcases List.prefix_cons_iff.mp h2 with h3 | ⟨r', h3, h4⟩
          · subst h3
            have := congrArg List.getLast? h1
            simp at this; exact ht this
          · have : r' = [] := List.prefix_nil.mp h4
            subst this; subst h3; exact hqd h1
      · intro hp
        rcases List.prefix_concat_iff.mp hp with h1 | h1
        · exact hqd h1.symm
        · exact hdq (h1.subset (by simp))

/-- **C106** A value given on the command line is stored at every place of the configuration that has the option's
setting, wherever it lies (outside lists of lists and outside the other overwritten settings). -/
theorem C106_given_option_stored (auto : Cfg) (cmd : Command) (given : List (String × Cfg)) (c c' : Cfg)
    (h : setupConfig auto cmd given c = some c') (hw : WellFormed c)
    (s : String) (hs : s ∈ optionNames cmd) (v : Cfg) (hg : given.lookup s = some v) (hv : Substantial v) (hwv : WellFormed v)
    (q : List Key) (hfree : ∀ k, Overwritten cmd given k → k ∉ q ∧ KeyFree k v)
    (hn : NoNestedLists c q) (hx : (readAt c (q ++ [.str (settingOf s)])).isSome) :
    readAt c' (q ++ [.str (settingOf s)]) = some v := by
  have harg : (s, v) ∈ clickArgs cmd given := by
    rw [mem_clickArgs]
    rw [← names_defaults] at hs
    obtain ⟨⟨s', d⟩, h1, rfl⟩ := List.mem_map.mp hs
    exact ⟨d, h1, by rw [hg]; rfl⟩
  refine setup_stores h hw (inputs_not_setting cmd s (List.mem_append_left _ hs)) (mem_of_arg cmd given harg (kept_of_substantial cmd hv)) ?_ hwv
    hfree hn hx
  intro _
  obtain ⟨h1, h2, h3⟩ := hv
  cases v with
  | leaf a =>
    cases a with
    | str t =>
      have : t ≠ "" := fun he => h2 (by rw [he])
      left; simp [updateDevice, this]
    | null => exact absurd rfl h1
    | num x => right; rfl
    | bool b => right; rfl
  | node l es =>
    have : es ≠ [] := fun he => h3 l (by rw [he])
    left; simp [updateDevice, this]

/-- **C106** Everything else stays: at a path that meets no overwritten setting the same thing is stored as in the
configuration file, a value or a container with the same keys (the inputs may gain the key `device`). -/
theorem C106_rest_unchanged (auto : Cfg) (cmd : Command) (given : List (String × Cfg)) (c c' : Cfg)
    (h : setupConfig auto cmd given c = some c') (p : List Key) (hp : ∀ k, Overwritten cmd given k → k ∉ p)
    (hi : p ≠ [.str "inputs"]) : (readAt c' p).map outline = (readAt c p).map outline := by
  obtain ⟨_, hu, hr⟩ := setup_readAt h
  rw [← deepUpdates_outline (commandSettings cmd given) c (fun e he => hp _ (overwritten_of_mem cmd given he))]
  by_cases h0 : p = []
  · rw [h0]; exact hr
  · rw [hu]
    have hd := hp _ (device_mem cmd given)
    constructor
    · intro hpre
      rcases List.prefix_cons_iff.mp hpre with h1 | ⟨r, h1, h2⟩
      · exact h0 h1
      · rcases List.prefix_cons_iff.mp h2 with h3 | ⟨r', h3, h4⟩
        · subst h3; exact hi h1
        · subst h3; exact hd (by rw [h1]; simp)
    · intro hpre; exact hd (hpre.subset (by simp))

/-- **C106** No setting is created: an option whose setting the configuration does not have is ignored without notice.
The device of the inputs is the only exception. -/
theorem C106_no_new_settings (auto : Cfg) (cmd : Command) (given : List (String × Cfg)) (c c' : Cfg)
    (h : setupConfig auto cmd given c = some c') (q : List Key) (k : Key) (hq : ∀ k, Overwritten cmd given k → k ∉ q)
    (hk : q ++ [k] ≠ [.str "inputs", .str "device"]) : (readAt c' (q ++ [k])).isSome = (readAt c (q ++ [k])).isSome := by
  have key : ∀ {a b : Cfg}, (readAt a q).map outline = (readAt b q).map outline →
      (readAt a (q ++ [k])).isSome = (readAt b (q ++ [k])).isSome := by
    intro a b hab
    have aux : ∀ x : Cfg, (readAt x (q ++ [k])).isSome =
        ((readAt x q).map outline).any (fun o => match o with
          | .value _ => false
          | .container _ ks => decide (k ∈ ks)) := by
      intro x
      rw [readAt_append]
      cases readAt x q with
      | none => rfl
      | some y =>
        cases y with
        | leaf a => simp [readAt, outline]
        | node l es =>
          simp only [Option.bind_some, Option.map_some, outline, Option.any_some, readAt]
          cases hl : es.lookup k with
          | none => simpa using (lookup_none_iff es k).mp hl
          | some z => simpa [readAt_nil] using (lookup_isSome_iff es k).mp (by simp [hl])
    rw [aux, aux, hab]
  by_cases hi : q = [.str "inputs"]
  · obtain ⟨_, hu, _⟩ := setup_readAt h
    have hkd : k ≠ .str "device" := fun he => hk (by rw [hi, he]; rfl)
    rw [hu]
    · exact key (deepUpdates_outline (commandSettings cmd given) c (fun e he => hq _ (overwritten_of_mem cmd given he)))
    · subst hi
      constructor
      · intro hp; simp at hp; exact hkd hp
      · intro hp; simp at hp; exact hkd hp.symm
  · exact key (C106_rest_unchanged auto cmd given c c' h q hq hi)

theorem silent_mem (cmd : Command) (given : List (String × Cfg)) (s : String) (hs : s ∈ alwaysOverwritten cmd)
    (hg : given.lookup s = none) : (Key.str s, silentValue s) ∈ commandSettings cmd given := by
  have hdef : ∀ s ∈ alwaysOverwritten cmd, s = "sample" ∨ s = "n_threads" ∨ s = "export_samples" ∨ s = "export_metadata" ∨
      (s, silentValue s) ∈ commandDefaults cmd ∧ keptBy cmd (silentValue s) = true := by
    cases cmd
    · simp [alwaysOverwritten, commandDefaults, ownOptions, createAndRunOptions, commonOptions, silentValue, keptBy,
        Cfg.isNull, Cfg.isEmptySized]
    · simp [alwaysOverwritten, commandDefaults, ownOptions, createAndRunOptions, commonOptions, runAndOptimiseOptions,
        silentValue, keptBy, Cfg.isNull, Cfg.isEmptySized]
    · simp [alwaysOverwritten, commandDefaults, ownOptions, createAndRunOptions, commonOptions, runAndOptimiseOptions,
        silentValue, keptBy, Cfg.isNull, Cfg.isEmptySized]
  have hexp : ∀ s, s = "export_samples" ∨ s = "export_metadata" → s ∈ alwaysOverwritten cmd → cmd = .optimise := by
    intro s hs' hm
    cases cmd <;> rcases hs' with rfl | rfl <;> first | rfl | exact absurd hm (by decide +kernel)
  rcases hdef s hs with rfl | rfl | rfl | rfl | ⟨h1, h2⟩
  · rw [mem_commandSettings]
    refine Or.inr ⟨fun _ => ⟨by simp, by simp⟩, ?_⟩
    rw [mem_updateSettings (gather_keys_nodup cmd given)]
    exact Or.inl rfl
  · rw [mem_commandSettings]
    refine Or.inr ⟨fun _ => ⟨by simp, by simp⟩, ?_⟩
    rw [mem_updateSettings (gather_keys_nodup cmd given)]
    refine Or.inr ⟨by simp, Or.inr ⟨by simp, Or.inl ?_⟩⟩
    have hl : (gatherSettings cmd (clickArgs cmd given)).lookup (.str "n_threads") = none := by
      rw [lookup_none_iff]
      intro hm
      obtain ⟨e, he, hk⟩ := List.mem_map.mp hm
      rw [mem_gather] at he
      obtain ⟨s', v, h1, h2, rfl⟩ := he
      have hs' : s' ∈ optionNames cmd := by rw [← clickArgs_names cmd given]; exact List.mem_map.mpr ⟨_, h1, rfl⟩
      have : ∀ s' ∈ optionNames cmd, settingOf s' = "n_threads" → s' = "n_threads" := by cases cmd <;> decide +kernel
      have hst : s' = "n_threads" := this s' hs' (by simpa using hk)
      subst hst
      rw [mem_clickArgs] at h1
      obtain ⟨d, h3, h4⟩ := h1
      rw [hg] at h4
      simp only [Option.getD_none] at h4
      subst h4
      have : ∀ e ∈ commandDefaults cmd, e.1 = "n_threads" → keptBy cmd e.2 = false := by cases cmd <;> decide +kernel
      rw [this _ h3 rfl] at h2; simp at h2
    rw [hl]; rfl
  · have := hexp _ (Or.inl rfl) hs
    rw [mem_commandSettings]; exact Or.inl ⟨this, Or.inr rfl⟩
  · have := hexp _ (Or.inr rfl) hs
    rw [mem_commandSettings]; exact Or.inl ⟨this, Or.inl rfl⟩
  · have := mem_of_arg cmd given (s := s) (v := silentValue s) (by
      rw [mem_clickArgs]; exact ⟨_, h1, by rw [hg]; rfl⟩) h2
    rwa [always_setting cmd s hs] at this

theorem leaf_keyFree (a : Atom) (k : Key) : KeyFree k (.leaf a) := by
  intro p hp
  cases p with
  | nil => simp
  | cons x xs => simp [readAt] at hp

theorem silent_plain (s : String) : (∃ a, silentValue s = .leaf a) ∨ silentValue s = .node true [] := by
  unfold silentValue
  split <;> simp

/-- **C106** The settings every call overwrites: with no option given for them they hold the default of the command
line, or `null`, whatever the configuration file says. -/
theorem C106_unasked_overwritten (auto : Cfg) (cmd : Command) (given : List (String × Cfg)) (c c' : Cfg)
    (h : setupConfig auto cmd given c = some c') (hw : WellFormed c)
    (s : String) (hs : s ∈ alwaysOverwritten cmd) (hg : given.lookup s = none)
    (q : List Key) (hfree : ∀ k, Overwritten cmd given k → k ∉ q)
    (hn : NoNestedLists c q) (hx : (readAt c (q ++ [.str s])).isSome) :
    readAt c' (q ++ [.str s]) = some (silentValue s) := by
  have hplain : WellFormed (silentValue s) ∧ ∀ k, KeyFree k (silentValue s) := by
    rcases silent_plain s with ⟨a, ha⟩ | ha <;> rw [ha]
    · refine ⟨?_, leaf_keyFree a⟩
      intro p l es hp
      cases p <;> simp [readAt] at hp
    · refine ⟨?_, ?_⟩
      · intro p l es hp
        cases p with
        | nil => simp only [readAt, Option.some.injEq, Cfg.node.injEq] at hp; rw [← hp.2]; simp
        | cons k ks => simp [readAt] at hp
      · intro k p hp
        cases p with
        | nil => simp
        | cons x xs => simp [readAt] at hp
  have hin := inputs_not_setting cmd s (List.mem_append_right _ hs)
  rw [always_setting cmd s hs] at hin
  refine setup_stores h hw hin (silent_mem cmd given s hs hg) ?_ hplain.1 (fun k hk => ⟨hfree k hk, hplain.2 k⟩) hn hx
  rintro rfl
  left; rfl

/-- A configuration used in the checks below: two settings called `seed`, one inside a list. -/
def sampleConfig : Cfg :=
  .node false
    [(.str "inputs", .node false [(.str "n_threads", .leaf (.num 6)), (.str "seed", .leaf (.num 1))]),
     (.str "mcmc", .node false [(.str "N", .leaf (.num 100))]),
     (.str "experiments", .node true [(.idx 0, .node false [(.str "type", .leaf (.str "SIM_MCMC")), (.str "seed", .leaf (.num 3))])])]

/-- **C106**, the full claim "what is not asked for on the command line stays as in the configuration file", fails:
`gensit run` without options clears the number of threads of the configuration. -/
theorem C106_file_values_kept_false :
    ¬ ∀ (auto : Cfg) (cmd : Command) (given : List (String × Cfg)) (c c' : Cfg) (p : List Key) (a : Atom),
      setupConfig auto cmd given c = some c' → (∀ e ∈ given, Key.str (settingOf e.1) ∉ p) →
      readAt c p = some (.leaf a) → readAt c' p = some (.leaf a) := by
  intro h
  have h1 : setupConfig (.leaf (.str "cpu")) .run [] sampleConfig = some (.node false
    [(.str "inputs", .node false [(.str "n_threads", .leaf .null), (.str "seed", .leaf (.num 1)), (.str "device", .leaf (.str "cpu"))]),
     (.str "mcmc", .node false [(.str "N", .leaf (.num 100))]),
     (.str "experiments", .node true [(.idx 0, .node false [(.str "type", .leaf (.str "SIM_MCMC")), (.str "seed", .leaf (.num 3))])])]) := by
    rfl
  have := h _ _ _ _ _ [.str "inputs", .str "n_threads"] (.num 6) h1 (by simp) rfl
  simp [readAt, List.lookup] at this

/-- `gensit run --seed 7 --n 5` on the sample configuration. -/
example : ((setupConfig (.leaf (.str "cpu")) .run [("seed", .leaf (.num 7)), ("n", .leaf (.num 5))] sampleConfig).map fun c' =>
    [[.str "inputs", .str "n_threads"], [.str "inputs", .str "seed"], [.str "inputs", .str "device"], [.str "mcmc", .str "N"],
      [.str "experiments", .idx 0, .str "seed"], [.str "experiments", .idx 0, .str "type"], [.str "seed"]].map fun p =>
      (readAt c' p).map outline) =
    some [some (.value .null), some (.value (.num 7)), some (.value (.str "cpu")), some (.value (.num 5)),
      some (.value (.num 7)), some (.value (.str "SIM_MCMC")), none] := by
  decide +kernel

theorem sampleConfig_wellFormed : WellFormed sampleConfig := by
  have key : ∀ (c : Cfg), WellFormed c ↔ ∀ l es, c = .node l es →
      ((es.map Prod.fst).Nodup ∧ (l = true → es.map Prod.fst = (List.range es.length).map Key.idx)) ∧ ∀ k v, es.lookup k = some v → WellFormed v := by
    intro c
    constructor
    · rintro h l es rfl
      exact ⟨h [] l es rfl, fun k v hv => (wf_child h (lookup_mem hv)).2⟩
    · intro h p l es hp
      cases p with
      | nil => rw [readAt_nil] at hp; exact (h l es (by simpa using hp)).1
      | cons k ks =>
        cases c with
        | leaf a => simp [readAt] at hp
        | node l' es' =>
          simp only [readAt] at hp
          cases hl : es'.lookup k with
          | none => rw [hl] at hp; simp at hp
          | some v => rw [hl] at hp; exact (h l' es' rfl).2 k v hl ks l es hp
  have leafw : ∀ a, WellFormed (.leaf a) := fun a => (key _).mpr (fun l es h => (by cases h))
  have entries : ∀ (es : List (Key × Cfg)), (∀ e ∈ es, WellFormed e.2) → ∀ k v, es.lookup k = some v → WellFormed v :=
    fun es h k v hv => h _ (lookup_mem hv)
  have node : ∀ l es, ((es.map Prod.fst).Nodup ∧ (l = true → es.map Prod.fst = (List.range es.length).map Key.idx)) →
      (∀ e ∈ es, WellFormed e.2) → WellFormed (.node l es) := by
    intro l es h1 h2
    refine (key _).mpr (fun l' es' he => ?_)
    cases he
    exact ⟨h1, entries es h2⟩
  unfold sampleConfig
  refine node _ _ (by decide) ?_
  simp only [List.mem_cons, List.not_mem_nil, or_false, forall_eq_or_imp, forall_eq]
  refine ⟨node _ _ (by decide) ?_, node _ _ (by decide) ?_, node _ _ (by decide) ?_⟩
  · simp [leafw]
  · simp [leafw]
  · simp only [List.mem_cons, List.not_mem_nil, or_false, forall_eq]
    exact node _ _ (by decide) (by simp [leafw])

/-- The hypotheses of `C106_given_option_stored` are met, for the seed inside the list of experiments. -/
example : ∃ c', setupConfig (.leaf (.str "cpu")) .run [("seed", .leaf (.num 7)), ("n", .leaf (.num 5))] sampleConfig = some c' ∧
    readAt c' [.str "experiments", .idx 0, .str "seed"] = some (.leaf (.num 7)) := by
  obtain ⟨c', h⟩ := Option.isSome_iff_exists.mp (by decide +kernel :
    (setupConfig (.leaf (.str "cpu")) .run [("seed", .leaf (.num 7)), ("n", .leaf (.num 5))] sampleConfig).isSome = true)
  refine ⟨c', h, ?_⟩
  refine C106_given_option_stored _ .run _ _ c' h sampleConfig_wellFormed "seed" (by decide +kernel) _ rfl
    ⟨by simp, by simp, by simp⟩ ?_ [.str "experiments", .idx 0] ?_ ?_ (by decide +kernel)
  · intro p l es hp
    cases p <;> simp [readAt] at hp
  · intro k hk
    refine ⟨?_, leaf_keyFree _ k⟩
    have : ∀ s ∈ alwaysOverwritten .run ++ ["seed", "N"], Key.str s ∉ [Key.str "experiments", .idx 0] := by decide +kernel
    rcases hk with ⟨s, hs, rfl⟩ | ⟨e, he, rfl⟩
    · exact this s (List.mem_append_left _ hs)
    · simp only [List.mem_cons, List.not_mem_nil, or_false] at he
      rcases he with rfl | rfl
      · exact this "seed" (by decide +kernel)
      · exact this "N" (by decide +kernel)
  · refine ⟨fun ⟨es, he⟩ => (by simp [readAt, sampleConfig] at he), ?_⟩
    intro r k hr hh
    have hlen := hr.length_le
    simp only [List.length_append, List.length_cons, List.length_nil] at hlen
    obtain ⟨⟨e1, h1⟩, ⟨e2, h2⟩⟩ := hh
    match r, hr, h1, h2 with
    | [], _, h1, _ => simp [readAt, sampleConfig] at h1
    | [x], hr, _, h2 =>
      simp only [List.cons_append, List.nil_append, List.cons_prefix_cons, List.nil_prefix, and_true] at hr
      obtain ⟨rfl, rfl⟩ := hr
      cases h2
    | _ :: _ :: _, _, _, _ => simp at hlen

end GeNSIT
