import Verif.Config.ValidateRead

/-!
# Validation of one parameter
-/

namespace GeNSIT.Spec

open GeNSIT

/-- The schema lets the parameter at `p` be left out: its entry is a dictionary marked `optional`, or no dictionary. -/
def MayBeMissing (sch : Cfg) (p : List Key) : Prop :=
  ∀ es, readAt sch p = some (.node false es) → ∃ o, readAt sch (p ++ [.str "optional"]) = some o ∧ o.truthy = true

/-- The schema marks the parameter at `p` as `sweepable`. -/
def MaySweep (sch : Cfg) (p : List Key) : Prop := ∃ o, readAt sch (p ++ [.str "sweepable"]) = some o ∧ o.truthy = true

/-- The settings are right about the plain parameter at `p`: it is known to the schema, and its value passes the check, or it
is left out and may be. -/
def PlainOk (chk : ValueCheck) (sch s : Cfg) (p : List Key) : Prop :=
  ∃ e, readAt sch p = some e ∧ (∀ v, readAt s p = some v → chk e v = .ok) ∧ (readAt s p = none → MayBeMissing sch p)

/-- The default of the sweep at `p` replaces the sweep: sweeps are off, or no range is given. -/
def Replaced (s : Cfg) (on : Bool) (p : List Key) (dv : Cfg) : Prop :=
  readAt s (p ++ [.str "sweep", .str "default"]) = some dv ∧
    (on = false ∨ readAt s (p ++ [.str "sweep", .str "range"]) = none)

/-- The settings are right about the sweepable parameter at `p`, when sweeps are `on` or off. -/
structure SweptOk (chk : ValueCheck) (sch s : Cfg) (on : Bool) (p : List Key) : Prop where
  known : (readAt sch (p ++ [.str "sweep"])).isSome
  missing : readAt s p = none → MayBeMissing sch p
  value : ∀ v, readAt s p = some v → readAt s (p ++ [.str "sweep"]) = none →
    ∃ d, readAt sch (p ++ [.str "sweep", .str "default"]) = some d ∧ chk d v = .ok
  sweep : (readAt s (p ++ [.str "sweep"])).isSome → MaySweep sch p ∧
    ∃ dv d r, readAt s (p ++ [.str "sweep", .str "default"]) = some dv ∧
      readAt sch (p ++ [.str "sweep", .str "default"]) = some d ∧ readAt sch (p ++ [.str "sweep", .str "range"]) = some r ∧
      ((on = true ∧ ∃ rv, readAt s (p ++ [.str "sweep", .str "range"]) = some rv ∧ chk d dv = .ok ∧ chk r rv = .ok) ∨
        ((on = false ∨ readAt s (p ++ [.str "sweep", .str "range"]) = none) ∧ (∀ k ∈ p, ∃ n, k = Key.str n) ∧
          (on = false → chk d dv = .ok)))

/-- The sweep at `p` is not coupled to another one. -/
def NotCoupled (s : Cfg) (p : List Key) : Prop := ∀ c, readAt s (p ++ [.str "sweep", .str "coupled"]) = some c → c.truthy = false

/-- The name under which a sweep is registered: the last key, or the one before it for a `file`. -/
def sweepName (p : List Key) : Key :=
  if p.getLast? = some (.str "file") then p.dropLast.getLast?.getD (.str "file") else p.getLast?.getD (.str "file")

end GeNSIT.Spec

namespace GeNSIT

open Spec

theorem readAt_snoc {s : Cfg} {p : List Key} {k : Key} {l : Bool} {es : List (Key × Cfg)} (h : readAt s p = some (.node l es)) :
    readAt s (p ++ [k]) = es.lookup k := by
  rw [readAt_append, h]
  simp only [Option.bind_some, readAt]
  cases es.lookup k <;> rfl

theorem readAt_snoc_leaf {s : Cfg} {p : List Key} {k : Key} {a : Atom} (h : readAt s p = some (.leaf a)) :
    readAt s (p ++ [k]) = none := by
  rw [readAt_append, h]; rfl

theorem readAt_snoc_list {s : Cfg} (hs : Clean s) {p : List Key} {n : String} {es : List (Key × Cfg)}
    (h : readAt s p = some (.node true es)) : readAt s (p ++ [.str n]) = none := by
  rw [readAt_snoc h]; exact list_no_str (clean_read hs h).wf n

theorem readAt_prefix_none {s : Cfg} {p : List Key} (h : readAt s p = none) (q : List Key) : readAt s (p ++ q) = none := by
  rw [readAt_append, h]; rfl

theorem optionalEntry_iff {sch e : Cfg} {p : List Key} (he : readAt sch p = some e) :
    optionalEntry e = true ↔ MayBeMissing sch p := by
  unfold MayBeMissing
  constructor
  · rintro h es hes
    rw [he, Option.some.injEq] at hes
    subst hes
    rw [readAt_snoc he]
    simp only [optionalEntry] at h
    split at h
    · cases h
    · rename_i o ho; exact ⟨o, ho, h⟩
  · intro h
    unfold optionalEntry
    split
    · rename_i es
      obtain ⟨o, ho, ht⟩ := h es he
      rw [readAt_snoc he] at ho
      simp only [ho, ht]
    · rfl

theorem sweepableEntry_iff {sch : Cfg} (hc : Clean sch) (p : List Key) :
    sweepableEntry (readAt sch p) = true ↔ MaySweep sch p := by
  unfold MaySweep sweepableEntry
  split
  · rename_i es hes
    rw [readAt_snoc hes]
    cases es.lookup (.str "sweepable") with
    | none => simp
    | some o => simp
  · rename_i x hne
    cases he : readAt sch p with
    | none => simp [readAt_prefix_none he]
    | some e =>
      cases e with
      | leaf a => simp [readAt_snoc_leaf he]
      | node l es =>
        cases l with
        | false => exact absurd he (hne es)
        | true => simp [readAt_snoc_list hc he]

/-- The state after a plain parameter. -/
def plainResult (p : List Key) (st : VState) : VState :=
  if p.getLast? = some (.str "sweep_mode") then { st with active := ((readAt st.settings p).getD (.leaf .null)).truthy } else st

/-- A parameter whose path does not end in `sweep`, for which the parameter file holds no dictionary. -/
theorem visitPlain_iff (chk : ValueCheck) {sch : Cfg} {p : List Key} {st st' : VState} (hc : Clean sch) (hs : Clean st.settings)
    (he : EndsInName p) (hl : p.getLast? ≠ some (.str "sweep")) :
    visitPlain chk sch p st = .ok st' ↔
      (∃ e, readAt sch p = some e ∧ (∀ v, readAt st.settings p = some v → chk e v = .ok) ∧
        (.str "sweep" ∉ p → readAt st.settings p = none → MayBeMissing sch p)) ∧ st' = plainResult p st := by
  unfold visitPlain leafCheck
  rw [pathGet_clean hc he, pathGet_clean hs he, pathVal_clean hs he]
  have hl' : (p.getLast? == some (.str "sweep")) = false := by simpa using hl
  rw [hl']
  cases hsch : readAt sch p with
  | none => simp
  | some e =>
    have hopt := optionalEntry_iff hsch
    simp only [Bool.false_and, Bool.false_eq_true, if_false, Option.some.injEq, exists_eq_left']
    have hst : (if (p.getLast? == some (.str "sweep_mode")) = true then
        { st with active := ((readAt st.settings p).getD (.leaf .null)).truthy } else st) = plainResult p st := by
      unfold plainResult
      simp only [beq_iff_eq]
    cases hv : readAt st.settings p with
    | none =>
      rw [hv] at hst
      simp only [Option.isNone_none, Bool.and_true]
      by_cases hsw : .str "sweep" ∈ p
      · simp only [hsw, not_true_eq_false, List.contains_eq_mem, decide_true, Bool.not_true, Bool.false_and,
          Bool.false_eq_true, if_false, typeChecks, hst, and_true, true_and,
          Except.ok.injEq, reduceCtorEq, IsEmpty.forall_iff, implies_true]
        exact eq_comm
      · cases ho : optionalEntry e with
        | false =>
          have hno : ¬ MayBeMissing sch p := fun h => by rw [hopt.2 h] at ho; cases ho
          simp [hsw, hno]
        | true =>
          have hyes := hopt.1 ho
          simp only [hsw, List.contains_eq_mem, decide_false, Bool.not_false, Bool.not_true, Bool.and_false, Bool.false_eq_true,
            if_false, typeChecks, hst, Except.ok.injEq, hyes, implies_true, and_true, true_and, reduceCtorEq, IsEmpty.forall_iff]
          exact eq_comm
    | some v =>
      rw [hv] at hst
      simp only [Option.isNone_some, Bool.and_false, Bool.false_and, Bool.false_eq_true, if_false, reduceCtorEq, false_implies,
        implies_true, and_true, Option.some.injEq, forall_eq', hst, typeChecks]
      have : ∀ (b : Bool) (x : Except VErr (VState × Bool)) (y : Except VErr (VState × Bool)),
          (if (b && !v.isDict) = true then x else x) = x := by intros; split <;> rfl
      rw [this (hasSweep (plainResult p st).settings p) _ (checkValue chk e v (plainResult p st))]
      unfold checkValue
      cases chk e v with
      | ok => simp only [Except.ok.injEq, true_and]; exact eq_comm
      | badConstructor => simp
      | badCheck => simp

/-- `s'` is `s` with `dv` written at `p`. -/
def Written (s s' : Cfg) (p : List Key) (dv : Cfg) : Prop :=
  Clean s' ∧ (∀ r, readAt s' (p ++ r) = readAt dv r) ∧ ∀ q, Unrelated p q → readAt s' q = readAt s q

theorem written_of {s dv : Cfg} (hs : Clean s) (hdv : Clean dv) {p : List Key} (he : EndsInName p) (hr : (readAt s p).isSome)
    (hn : ∀ k ∈ p, ∃ n, k = Key.str n) : ∃ s', pathSet false s dv p = some (s', true) ∧ Written s s' p dv := by
  obtain ⟨s', h1, h2, h3, h4⟩ := pathSet_clean dv hdv p s hs he.ne hn hr
  exact ⟨s', h1, h2, h3, h4⟩

theorem names_of {s s' dv : Cfg} (hs : Clean s) {p : List Key} (he : EndsInName p) (hr : (readAt s p).isSome)
    {b : Bool} (h : pathSet false s dv p = some (s', b)) : ∀ k ∈ p, ∃ n, k = Key.str n := by
  intro k hk
  cases k with
  | str n => exact ⟨n, rfl⟩
  | idx i =>
    rw [pathSet_through_list dv p s hs he ⟨i, hk⟩ hr] at h
    cases h

theorem recordCoupled_keeps {path : List Key} {es : List (Key × Cfg)} {st st' : VState} (h : recordCoupled path es st = .ok st') :
    st'.settings = st.settings ∧ st'.active = st.active ∧ st'.isolated = st.isolated := by
  unfold recordCoupled at h
  repeat' split at h
  all_goals first
    | (cases h; done)
    | (simp only [Except.ok.injEq] at h; subst h; exact ⟨rfl, rfl, rfl⟩)

theorem recordIsolated_eq {p : List Key} (he : EndsInName p) (hf : p ≠ [.str "file"]) (st : VState) :
    recordIsolated (p ++ [.str "sweep"]) st = .ok { st with isolated := keySet st.isolated (sweepName p) p } := by
  obtain ⟨r, n, rfl⟩ := he
  unfold recordIsolated sweepName
  rw [List.dropLast_concat, List.getLast?_concat, List.dropLast_concat]
  simp only [Option.some.injEq, Option.getD_some]
  by_cases hn : Key.str n = .str "file"
  · rw [if_pos hn, if_pos hn]
    rcases List.eq_nil_or_concat r with rfl | ⟨q, k, rfl⟩
    · rw [hn] at hf; exact absurd rfl hf
    · simp only [List.concat_eq_append, List.getLast?_concat, Option.getD_some]
  · rw [if_neg hn, if_neg hn]

theorem recordIsolated_keeps {path : List Key} {st st' : VState} (h : recordIsolated path st = .ok st') :
    st'.settings = st.settings ∧ st'.active = st.active := by
  unfold recordIsolated at h
  repeat' split at h
  all_goals first
    | (cases h; done)
    | (simp only [Except.ok.injEq] at h; subst h; exact ⟨rfl, rfl⟩)

/-- The sweep checks at `p ++ [sweep]`. -/
theorem leafCheck_sweep (chk : ValueCheck) {sch : Cfg} {p : List Key} {st : VState} (hc : Clean sch) (hs : Clean st.settings) :
    leafCheck chk sch (p ++ [.str "sweep"]) true st =
      match readAt sch (p ++ [.str "sweep"]) with
      | none => .error .raised
      | some sv =>
        match readAt st.settings (p ++ [.str "sweep"]) with
        | none =>
          match sweepDefault chk sch sv (p ++ [.str "sweep"]) false st with
          | .error e => .error e
          | .ok st3 => .ok (st3, false)
        | some g =>
          match sweepGiven sch (p ++ [.str "sweep"]) g st with
          | .error e => .error e
          | .ok st1 =>
            match (if st1.active then .ok st1 else sweepDefault chk sch sv (p ++ [.str "sweep"]) true st1) with
            | .error e => .error e
            | .ok st3 => if g.isDict then .ok (st3, true) else checkValue chk sv g st3 := by
  have he : EndsInName (p ++ [.str "sweep"]) := endsInName_snoc _ _
  unfold leafCheck
  rw [pathGet_clean hc he, pathGet_clean hs he]
  have h1 : ((p ++ [Key.str "sweep"]).getLast? == some (.str "sweep")) = true := by simp
  have h2 : ((p ++ [Key.str "sweep"]).getLast? == some (.str "sweep_mode")) = false := by
    rw [List.getLast?_concat]; decide +kernel
  have h3 : (p ++ [Key.str "sweep"]).contains (.str "sweep") = true := by simp
  have h4 : ∀ s : Cfg, hasSweep s (p ++ [.str "sweep"]) = true := by intro s; unfold hasSweep; rw [if_pos h3]
  rw [h1, h2, h3]
  cases readAt sch (p ++ [.str "sweep"]) with
  | none => rfl
  | some sv =>
    cases readAt st.settings (p ++ [.str "sweep"]) with
    | none =>
      simp only [Bool.not_true, Bool.false_and, Bool.false_eq_true, if_false, Option.isNone_none, Bool.or_true, Bool.true_and,
        if_true, Option.isSome_none, typeChecks]
      cases sweepDefault chk sch sv (p ++ [.str "sweep"]) false st <;> rfl
    | some g =>
      simp only [Bool.not_true, Bool.false_and, Bool.false_eq_true, if_false, Option.isNone_some, Bool.or_false, Bool.true_and,
        if_true, Option.isSome_some, typeChecks, h4]
      cases sweepGiven sch (p ++ [.str "sweep"]) g st with
      | error e => rfl
      | ok st1 =>
        simp only
        cases st1.active with
        | true =>
          simp only [Bool.not_true, Bool.false_eq_true, if_false, if_true]
          cases g.isDict <;> rfl
        | false =>
          simp only [Bool.not_false, if_true, Bool.false_eq_true, if_false]
          cases sweepDefault chk sch sv (p ++ [.str "sweep"]) true st1 with
          | error e => rfl
          | ok st3 => cases g.isDict <;> rfl

theorem app2 (p : List Key) (a b : Key) : p ++ [a, b] = p ++ [a] ++ [b] := by simp

/-- What is registered for the sweep at `p`. -/
def Registered (s : Cfg) (p : List Key) (old new : List (Key × List Key)) : Prop :=
  (NotCoupled s p ∧ p ≠ [.str "file"] ∧ (readAt s (p ++ [.str "sweep", .str "range"])).isSome → new = keySet old (sweepName p) p) ∧
  (readAt s (p ++ [.str "sweep", .str "range"]) = none → new = old) ∧
  (¬ NotCoupled s p → new = old)

theorem coupled_iff {s : Cfg} {p : List Key} {es : List (Key × Cfg)} (h : readAt s (p ++ [.str "sweep"]) = some (.node false es)) :
    ((es.lookup (.str "coupled")).getD (.leaf (.bool false))).truthy = true ↔ ¬ NotCoupled s p := by
  unfold NotCoupled
  rw [app2, readAt_snoc h]
  cases es.lookup (.str "coupled") with
  | none => simp [Cfg.truthy]
  | some c => simp

theorem sweepGiven_ok {sch : Cfg} {p : List Key} {g : Cfg} {st st1 : VState} (hc : Clean sch) (hs : Clean st.settings)
    (he : EndsInName p) (hg : readAt st.settings (p ++ [.str "sweep"]) = some g)
    (h : sweepGiven sch (p ++ [.str "sweep"]) g st = .ok st1) :
    MaySweep sch p ∧ g.isDict = true ∧ st1.active = st.active ∧ Registered st.settings p st.isolated st1.isolated ∧
      ∃ dv, readAt st.settings (p ++ [.str "sweep", .str "default"]) = some dv ∧
        (((readAt st.settings (p ++ [.str "sweep", .str "range"])).isSome ∧ st1.settings = st.settings) ∨
          (readAt st.settings (p ++ [.str "sweep", .str "range"]) = none ∧ (∀ k ∈ p, ∃ n, k = Key.str n) ∧
            Written st.settings st1.settings p dv)) := by
  unfold sweepGiven at h
  rw [List.dropLast_concat, pathGet_clean hc he] at h
  split at h
  swap; · cases h
  rename_i hsw
  rw [sweepableEntry_iff hc] at hsw
  split at h
  swap; · cases h
  rename_i es
  split at h
  swap; · cases h
  rename_i hdef
  obtain ⟨dv, hdv⟩ := Option.isSome_iff_exists.1 hdef
  have hpd : readAt st.settings (p ++ [.str "sweep", .str "default"]) = some dv := by rw [app2, readAt_snoc hg, hdv]
  have hpr : readAt st.settings (p ++ [.str "sweep", .str "range"]) = es.lookup (.str "range") := by rw [app2, readAt_snoc hg]
  have hpp : (readAt st.settings p).isSome := by
    cases hp : readAt st.settings p with
    | none => rw [readAt_prefix_none hp] at hg; cases hg
    | some v => rfl
  have hcoup := coupled_iff hg
  refine ⟨hsw, rfl, ?_⟩
  split at h
  · rename_i hrange
    rw [hpr]
    split at h
    · rename_i hco
      obtain ⟨h1, h2, h3⟩ := recordCoupled_keeps h
      refine ⟨h2, ⟨fun hh => absurd hh.1 (hcoup.1 hco), fun hh => ?_, fun _ => h3⟩, dv, hpd, Or.inl ⟨hrange, h1⟩⟩
      rw [hpr] at hh; rw [hh] at hrange; cases hrange
    · rename_i hco
      have hnc : NotCoupled st.settings p := by
        by_contra hh; exact hco (hcoup.2 hh)
      obtain ⟨h1, h2⟩ := recordIsolated_keeps h
      refine ⟨h2, ⟨fun hh => ?_, fun hh => ?_, fun hh => absurd hnc hh⟩, dv, hpd, Or.inl ⟨hrange, h1⟩⟩
      · rw [recordIsolated_eq he hh.2.1] at h
        simp only [Except.ok.injEq] at h
        rw [← h]
      · rw [hpr] at hh; rw [hh] at hrange; cases hrange
  · rename_i hrange
    have hnr : es.lookup (.str "range") = none := by
      cases hx : es.lookup (.str "range") with
      | none => rfl
      | some v => rw [hx] at hrange; exact absurd rfl hrange
    rw [pathVal_clean hs (endsInName_snoc _ _), ← app2, hpd, Option.getD_some] at h
    split at h
    swap; · cases h
    rename_i s' hset
    have hn := names_of hs he hpp hset
    obtain ⟨s'', hset', hw⟩ := written_of hs (clean_read hs hpd) he hpp hn
    rw [hset'] at hset
    simp only [Option.some.injEq, Prod.mk.injEq, and_true] at hset
    subst hset
    rw [hpr]
    split at h
    · rename_i hco
      obtain ⟨h1, h2, h3⟩ := recordCoupled_keeps h
      refine ⟨h2, ⟨fun hh => absurd hh.1 (hcoup.1 hco), fun _ => h3, fun _ => h3⟩, dv, hpd, Or.inr ⟨hnr, hn, ?_⟩⟩
      rw [h1]; exact hw
    · simp only [Except.ok.injEq] at h
      subst h
      refine ⟨rfl, ⟨fun hh => ?_, fun _ => rfl, fun _ => rfl⟩, dv, hpd, Or.inr ⟨hnr, hn, hw⟩⟩
      rw [hpr, hnr] at hh
      cases hh.2.2

theorem sweepGiven_succeeds {sch : Cfg} {p : List Key} {g dv : Cfg} {st : VState} (hc : Clean sch) (hs : Clean st.settings)
    (he : EndsInName p) (hf : p ≠ [.str "file"]) (hg : readAt st.settings (p ++ [.str "sweep"]) = some g)
    (hm : MaySweep sch p) (hd : readAt st.settings (p ++ [.str "sweep", .str "default"]) = some dv)
    (hnc : NotCoupled st.settings p)
    (hn : readAt st.settings (p ++ [.str "sweep", .str "range"]) = none → ∀ k ∈ p, ∃ n, k = Key.str n) :
    ∃ st1, sweepGiven sch (p ++ [.str "sweep"]) g st = .ok st1 := by
  unfold sweepGiven
  rw [List.dropLast_concat, pathGet_clean hc he, if_pos ((sweepableEntry_iff hc p).2 hm)]
  have hpp : (readAt st.settings p).isSome := by
    cases hp : readAt st.settings p with
    | none => rw [readAt_prefix_none hp] at hg; cases hg
    | some v => rfl
  rw [app2] at hd
  cases g with
  | leaf a => rw [readAt_snoc_leaf hg] at hd; cases hd
  | node l es =>
    cases l with
    | true => rw [readAt_snoc_list hs hg] at hd; cases hd
    | false =>
      have hpr : readAt st.settings (p ++ [.str "sweep", .str "range"]) = es.lookup (.str "range") := by rw [app2, readAt_snoc hg]
      have hd' := hd
      rw [readAt_snoc hg] at hd
      simp only [hd, Option.isSome_some, if_true]
      have hco : ((es.lookup (.str "coupled")).getD (.leaf (.bool false))).truthy = false := by
        cases hx : ((es.lookup (.str "coupled")).getD (.leaf (.bool false))).truthy with
        | false => rfl
        | true => exact absurd hnc ((coupled_iff hg).1 hx)
      rw [hco]
      cases hr : es.lookup (.str "range") with
      | some rv =>
        simp only [Option.isSome_some, if_true, Bool.false_eq_true, if_false]
        exact ⟨_, recordIsolated_eq he hf st⟩
      | none =>
        rw [hpr, hr] at hn
        obtain ⟨s', h1, _⟩ := written_of hs (clean_read hs hd') he hpp (hn rfl)
        rw [pathVal_clean hs (endsInName_snoc _ _), hd', Option.getD_some, h1]
        simp only [Option.isSome_none, Bool.false_eq_true, if_false]
        exact ⟨_, rfl⟩

theorem getItem_read {sch sv : Cfg} {p : List Key} {n : String} (h : readAt sch p = some sv) :
    sv.getItem (.str n) = readAt sch (p ++ [.str n]) := by
  cases sv with
  | leaf a => rw [readAt_snoc_leaf h]; cases a <;> rfl
  | node l es => rw [readAt_snoc h]; rfl

theorem checkDefault_iff (chk : ValueCheck) {sch sv v : Cfg} {p : List Key} {st st' : VState}
    (h : readAt sch (p ++ [.str "sweep"]) = some sv) :
    checkDefault chk sv v st = .ok st' ↔
      (∃ d, readAt sch (p ++ [.str "sweep", .str "default"]) = some d ∧ chk d v = .ok) ∧ st' = st := by
  unfold checkDefault
  rw [getItem_read h, ← app2]
  cases readAt sch (p ++ [.str "sweep", .str "default"]) with
  | none => simp
  | some d =>
    by_cases hd : chk d v = .ok
    · simp [hd, eq_comm]
    · simp [hd]

/-- Effect of an accepted sweepable parameter. -/
structure SweptEffect (st st' : VState) (p : List Key) : Prop where
  active : st'.active = st.active
  clean : Clean st'.settings
  frame : ∀ q, Unrelated p q → readAt st'.settings q = readAt st.settings q
  replaced : ∀ dv, Replaced st.settings st.active p dv → ∀ r, readAt st'.settings (p ++ r) = readAt dv r
  kept : (¬ ∃ dv, Replaced st.settings st.active p dv) → st'.settings = st.settings
  registered : Registered st.settings p st.isolated st'.isolated

theorem visitChild (chk : ValueCheck) {sch : Cfg} {p : List Key} {n : String} {st st' : VState} (hc : Clean sch) (hs : Clean st.settings)
    (h1 : Key.str n ≠ .str "sweep") (h2 : Key.str n ≠ .str "sweep_mode") :
    visitPlain chk sch (p ++ [.str "sweep"] ++ [.str n]) st = .ok st' ↔
      (∃ e, readAt sch (p ++ [.str "sweep", .str n]) = some e ∧
        ∀ v, readAt st.settings (p ++ [.str "sweep", .str n]) = some v → chk e v = .ok) ∧ st' = st := by
  rw [visitPlain_iff chk hc hs (endsInName_snoc _ _) (by rw [List.getLast?_concat]; simpa using h1)]
  have hres : plainResult (p ++ [.str "sweep"] ++ [.str n]) st = st := by
    unfold plainResult
    rw [List.getLast?_concat, if_neg (by simpa using h2)]
  rw [hres, ← app2]
  have hmem : Key.str "sweep" ∈ p ++ [.str "sweep", .str n] := by simp
  simp only [hmem, not_true_eq_false, false_implies, and_true]

theorem keyDefault_ne : Key.str "default" ≠ .str "sweep" ∧ Key.str "default" ≠ .str "sweep_mode" := by
  constructor <;> decide +kernel

theorem keyRange_ne : Key.str "range" ≠ .str "sweep" ∧ Key.str "range" ≠ .str "sweep_mode" := by
  constructor <;> decide +kernel

theorem Written.again {s s' s'' : Cfg} {p : List Key} {dv : Cfg} (h : Written s s' p dv) (h' : Written s' s'' p dv) :
    Written s s'' p dv :=
  ⟨h'.1, h'.2.1, fun q hq => (h'.2.2 q hq).trans (h.2.2 q hq)⟩

/-- Check 7 when a sweep was given. -/
theorem sweepDefault_given (chk : ValueCheck) {sch sv dv : Cfg} {p : List Key} {st1 : VState} (hs : Clean st1.settings)
    (he : EndsInName p) (hsv : readAt sch (p ++ [.str "sweep"]) = some sv) (hp : (readAt st1.settings p).isSome)
    (hdv : Clean dv)
    (hread : readAt st1.settings (p ++ [.str "sweep", .str "default"]) = some dv ∨
      (readAt st1.settings (p ++ [.str "sweep", .str "default"]) = none ∧ readAt st1.settings p = some dv)) :
    (∀ st3, sweepDefault chk sch sv (p ++ [.str "sweep"]) true st1 = .ok st3 →
      (∀ k ∈ p, ∃ n, k = Key.str n) ∧ (∃ d, readAt sch (p ++ [.str "sweep", .str "default"]) = some d ∧ chk d dv = .ok) ∧
        ∃ s', Written st1.settings s' p dv ∧ st3 = { st1 with settings := s' }) ∧
    ((∀ k ∈ p, ∃ n, k = Key.str n) → (∃ d, readAt sch (p ++ [.str "sweep", .str "default"]) = some d ∧ chk d dv = .ok) →
      ∃ s', Written st1.settings s' p dv ∧
        sweepDefault chk sch sv (p ++ [.str "sweep"]) true st1 = .ok { st1 with settings := s' }) := by
  have hval : (pathGet st1.settings (p ++ [.str "sweep"] ++ [.str "default"])).or (pathGet st1.settings p) = some dv := by
    rw [pathGet_clean hs (endsInName_snoc _ _), pathGet_clean hs he, ← app2]
    rcases hread with h | ⟨h, h'⟩
    · rw [h]; rfl
    · rw [h, h']; rfl
  unfold sweepDefault
  rw [if_pos rfl, List.dropLast_concat, hval]
  simp only
  constructor
  · intro st3 h
    split at h
    swap; · cases h
    rename_i s' hset
    have hn := names_of hs he hp hset
    obtain ⟨s'', h1, h2⟩ := written_of hs hdv he hp hn
    rw [h1] at hset
    simp only [Option.some.injEq, Prod.mk.injEq, and_true] at hset
    subst hset
    rw [checkDefault_iff chk hsv] at h
    exact ⟨hn, h.1, s'', h2, h.2⟩
  · intro hn hd
    obtain ⟨s'', h1, h2⟩ := written_of hs hdv he hp hn
    refine ⟨s'', h2, ?_⟩
    rw [h1]
    exact (checkDefault_iff chk hsv).2 ⟨hd, rfl⟩

theorem read_some_of_prefix {s : Cfg} {p r : List Key} (h : (readAt s (p ++ r)).isSome) : (readAt s p).isSome := by
  cases hp : readAt s p with
  | none => rw [readAt_prefix_none hp] at h; cases h
  | some v => rfl

theorem visitSwept_none (chk : ValueCheck) {sch : Cfg} {p : List Key} {st st' : VState} (hc : Clean sch) (hs : Clean st.settings)
    (he : EndsInName p) (hg : readAt st.settings (p ++ [.str "sweep"]) = none) :
    visitSwept chk sch p st = .ok st' ↔ SweptOk chk sch st.settings st.active p ∧ st' = st := by
  unfold visitSwept
  rw [leafCheck_sweep chk hc hs, hg]
  constructor
  · intro h
    cases hsv : readAt sch (p ++ [.str "sweep"]) with
    | none => rw [hsv] at h; cases h
    | some sv =>
      rw [hsv] at h
      simp only at h
      unfold sweepDefault at h
      rw [if_neg (by simp), List.dropLast_concat, pathGet_clean hs he, pathGet_clean hc he] at h
      cases hp : readAt st.settings p with
      | none =>
        rw [hp] at h
        simp only at h
        obtain ⟨ps, hps⟩ := Option.isSome_iff_exists.1 (read_some_of_prefix (r := [.str "sweep"]) (by rw [hsv]; rfl) : (readAt sch p).isSome)
        rw [hps] at h
        simp only at h
        by_cases ho : optionalEntry ps = true
        · simp only [ho, if_true, Except.ok.injEq] at h
          refine ⟨⟨by rw [hsv]; rfl, fun _ => (optionalEntry_iff hps).1 ho, ?_, ?_⟩, h.symm⟩
          · intro v hv; rw [hp] at hv; cases hv
          · intro hx; rw [hg] at hx; cases hx
        · simp [ho] at h
      | some v =>
        rw [hp] at h
        simp only at h
        cases hcd : checkDefault chk sv v st with
        | error e => rw [hcd] at h; cases h
        | ok st3 =>
          rw [hcd] at h
          simp only [Except.ok.injEq] at h
          rw [h] at hcd
          rw [checkDefault_iff chk hsv] at hcd
          refine ⟨⟨by rw [hsv]; rfl, ?_, ?_, ?_⟩, hcd.2⟩
          · intro hx; rw [hp] at hx; cases hx
          · intro v' hv' _
            rw [hp] at hv'; cases hv'
            exact hcd.1
          · intro hx; rw [hg] at hx; cases hx
  · rintro ⟨hok, rfl⟩
    obtain ⟨sv, hsv⟩ := Option.isSome_iff_exists.1 hok.known
    rw [hsv]
    simp only
    unfold sweepDefault
    rw [if_neg (by simp), List.dropLast_concat, pathGet_clean hs he, pathGet_clean hc he]
    cases hp : readAt st'.settings p with
    | none =>
      simp only
      obtain ⟨ps, hps⟩ := Option.isSome_iff_exists.1 (read_some_of_prefix (r := [.str "sweep"]) (by rw [hsv]; rfl) : (readAt sch p).isSome)
      rw [hps]
      simp only [(optionalEntry_iff hps).2 (hok.missing hp), if_true]
    | some v =>
      simp only
      rw [(checkDefault_iff chk hsv (v := v) (st := st') (st' := st')).2 ⟨hok.value v hp hg, rfl⟩]

theorem visitSwept_ok (chk : ValueCheck) {sch : Cfg} {p : List Key} {st st' : VState} (hc : Clean sch) (hs : Clean st.settings)
    (he : EndsInName p) (hD : readAt st.settings (p ++ [.str "sweep", .str "default", .str "sweep"]) = none)
    (h : visitSwept chk sch p st = .ok st') : SweptOk chk sch st.settings st.active p ∧ SweptEffect st st' p := by
  cases hg : readAt st.settings (p ++ [.str "sweep"]) with
  | none =>
    obtain ⟨hok, rfl⟩ := (visitSwept_none chk hc hs he hg).1 h
    have hnr : ∀ dv, ¬ Replaced st'.settings st'.active p dv := by
      rintro dv ⟨h1, _⟩
      rw [app2, readAt_prefix_none hg] at h1
      cases h1
    have hrr : readAt st'.settings (p ++ [.str "sweep", .str "range"]) = none := by rw [app2, readAt_prefix_none hg]
    refine ⟨hok, ⟨rfl, hs, fun _ _ => rfl, fun dv hdv => absurd hdv (hnr dv), fun _ => rfl, ⟨?_, fun _ => rfl, fun _ => rfl⟩⟩⟩
    rintro ⟨_, _, hx⟩
    rw [hrr] at hx; cases hx
  | some g =>
    unfold visitSwept at h
    rw [leafCheck_sweep chk hc hs, hg] at h
    cases hsv : readAt sch (p ++ [.str "sweep"]) with
    | none => rw [hsv] at h; cases h
    | some sv =>
      rw [hsv] at h
      simp only at h
      cases hgi : sweepGiven sch (p ++ [.str "sweep"]) g st with
      | error e => rw [hgi] at h; cases h
      | ok st1 =>
        rw [hgi] at h
        obtain ⟨hm, hdict, hact, hreg, dv, hdv, hcase⟩ := sweepGiven_ok hc hs he hg hgi
        have hdvc := clean_read hs hdv
        have hdvsw : readAt dv [.str "sweep"] = none := by
          have := hD
          rw [show p ++ [Key.str "sweep", .str "default", .str "sweep"] = p ++ [.str "sweep", .str "default"] ++ [.str "sweep"] by simp,
            readAt_append, hdv] at this
          exact this
        have hdvsw2 : ∀ n, readAt dv [.str "sweep", .str n] = none := by
          intro n
          rw [show [Key.str "sweep", Key.str n] = [.str "sweep"] ++ [.str n] from rfl, readAt_prefix_none hdvsw]
        have hpp : (readAt st.settings p).isSome := read_some_of_prefix (r := [.str "sweep"]) (by rw [hg]; rfl)
        simp only [hdict, if_true] at h
        cases hon : st.active with
        | true =>
          rw [hact, hon] at h
          simp only [if_true] at h
          rw [← app2, ← app2] at h
          have hs1 : Clean st1.settings := by
            rcases hcase with ⟨_, h1⟩ | ⟨_, _, h1⟩
            · rw [h1]; exact hs
            · exact h1.1
          cases hv1 : visitPlain chk sch (p ++ [.str "sweep", .str "default"]) st1 with
          | error e => rw [hv1] at h; cases h
          | ok st2 =>
            rw [hv1] at h
            simp only at h
            rw [app2, visitChild chk hc hs1 keyDefault_ne.1 keyDefault_ne.2] at hv1
            obtain ⟨⟨d, hd, hdok⟩, rfl⟩ := hv1
            rw [app2, visitChild chk hc hs1 keyRange_ne.1 keyRange_ne.2] at h
            obtain ⟨⟨r, hr, hrok⟩, rfl⟩ := h
            rcases hcase with ⟨hrs, hset⟩ | ⟨hrn, hn, hw⟩
            · obtain ⟨rv, hrv⟩ := Option.isSome_iff_exists.1 hrs
              rw [hset] at hdok hrok
              refine ⟨⟨by rw [hsv]; rfl, ?_, ?_, fun _ => ⟨hm, dv, d, r, hdv, hd, hr, Or.inl ⟨rfl, rv, hrv, hdok dv hdv, hrok rv hrv⟩⟩⟩, ?_⟩
              · intro hx; rw [hx] at hpp; cases hpp
              · intro v _ hx; rw [hg] at hx; cases hx
              · have hnr : ¬ ∃ dv, Replaced st.settings st.active p dv := by
                  rintro ⟨dv, _, hx⟩
                  rw [hon, hrv] at hx
                  simp at hx
                refine ⟨hact, by rw [hset]; exact hs, fun _ _ => by rw [hset], fun dv hx => absurd ⟨dv, hx⟩ hnr, fun _ => hset, hreg⟩
            · refine ⟨⟨by rw [hsv]; rfl, ?_, ?_, fun _ => ⟨hm, dv, d, r, hdv, hd, hr, Or.inr ⟨Or.inr hrn, hn, fun hx => by cases hx⟩⟩⟩, ?_⟩
              · intro hx; rw [hx] at hpp; cases hpp
              · intro v _ hx; rw [hg] at hx; cases hx
              · refine ⟨hact, hw.1, hw.2.2, fun dv' hx => ?_, fun hx => absurd ⟨dv, hdv, Or.inr hrn⟩ hx, hreg⟩
                rw [hx.1] at hdv
                cases hdv
                exact hw.2.1
        | false =>
          rw [hact, hon] at h
          simp only [Bool.false_eq_true, if_false] at h
          cases hsd : sweepDefault chk sch sv (p ++ [.str "sweep"]) true st1 with
          | error e => rw [hsd] at h; cases h
          | ok st3 =>
            rw [hsd] at h
            simp only at h
            rw [← app2, ← app2] at h
            have hs1 : Clean st1.settings := by
              rcases hcase with ⟨_, h1⟩ | ⟨_, _, h1⟩
              · rw [h1]; exact hs
              · exact h1.1
            have hpp1 : (readAt st1.settings p).isSome := by
              rcases hcase with ⟨_, h1⟩ | ⟨_, _, h1⟩
              · rw [h1]; exact hpp
              · have := h1.2.1 []
                rw [List.append_nil, readAt_nil] at this
                rw [this]; rfl
            have hread : readAt st1.settings (p ++ [.str "sweep", .str "default"]) = some dv ∨
                (readAt st1.settings (p ++ [.str "sweep", .str "default"]) = none ∧ readAt st1.settings p = some dv) := by
              rcases hcase with ⟨_, h1⟩ | ⟨_, _, h1⟩
              · rw [h1]; exact Or.inl hdv
              · refine Or.inr ⟨by rw [h1.2.1]; exact hdvsw2 _, ?_⟩
                have := h1.2.1 []
                rw [List.append_nil, readAt_nil] at this
                exact this
            obtain ⟨hn, ⟨d, hd, hdok⟩, s', hw, rfl⟩ := (sweepDefault_given chk hs1 he hsv hpp1 hdvc hread).1 st3 hsd
            cases hv1 : visitPlain chk sch (p ++ [.str "sweep", .str "default"]) { st1 with settings := s' } with
            | error e => rw [hv1] at h; cases h
            | ok st2 =>
              rw [hv1] at h
              simp only at h
              rw [app2, visitChild chk hc hw.1 keyDefault_ne.1 keyDefault_ne.2] at hv1
              obtain ⟨_, rfl⟩ := hv1
              rw [app2, visitChild chk hc hw.1 keyRange_ne.1 keyRange_ne.2] at h
              obtain ⟨⟨r, hr, _⟩, rfl⟩ := h
              have hwhole : Written st.settings s' p dv := by
                rcases hcase with ⟨_, h1⟩ | ⟨_, _, h1⟩
                · rw [h1] at hw; exact hw
                · exact h1.again hw
              refine ⟨⟨by rw [hsv]; rfl, ?_, ?_, fun _ => ⟨hm, dv, d, r, hdv, hd, hr, Or.inr ⟨Or.inl rfl, hn, fun _ => hdok⟩⟩⟩, ?_⟩
              · intro hx; rw [hx] at hpp; cases hpp
              · intro v _ hx; rw [hg] at hx; cases hx
              · refine ⟨hact, hwhole.1, hwhole.2.2, fun dv' hx => ?_, fun hx => absurd ⟨dv, hdv, Or.inl hon⟩ hx, hreg⟩
                rw [hx.1] at hdv
                cases hdv
                exact hwhole.2.1

theorem visitSwept_succeeds (chk : ValueCheck) {sch : Cfg} {p : List Key} {st : VState} (hc : Clean sch) (hs : Clean st.settings)
    (he : EndsInName p) (hf : p ≠ [.str "file"])
    (hD : readAt st.settings (p ++ [.str "sweep", .str "default", .str "sweep"]) = none) (hnc : NotCoupled st.settings p)
    (hok : SweptOk chk sch st.settings st.active p) : ∃ st', visitSwept chk sch p st = .ok st' := by
  cases hg : readAt st.settings (p ++ [.str "sweep"]) with
  | none => exact ⟨st, (visitSwept_none chk hc hs he hg).2 ⟨hok, rfl⟩⟩
  | some g =>
    obtain ⟨sv, hsv⟩ := Option.isSome_iff_exists.1 hok.known
    obtain ⟨hm, dv, d, r, hdv, hd, hr, hcase⟩ := hok.sweep (by rw [hg]; rfl)
    obtain ⟨st1, hgi⟩ := sweepGiven_succeeds hc hs he hf hg hm hdv hnc (by
      intro hrn
      rcases hcase with ⟨_, rv, hrv, _⟩ | ⟨_, hn, _⟩
      · rw [hrn] at hrv; cases hrv
      · exact hn)
    obtain ⟨_, hdict, hact, _, dv', hdv', hcase'⟩ := sweepGiven_ok hc hs he hg hgi
    rw [hdv] at hdv'
    cases hdv'
    have hdvc := clean_read hs hdv
    have hdvsw : readAt dv [.str "sweep"] = none := by
      have := hD
      rw [show p ++ [Key.str "sweep", .str "default", .str "sweep"] = p ++ [.str "sweep", .str "default"] ++ [.str "sweep"] by simp,
        readAt_append, hdv] at this
      exact this
    have hdvsw2 : ∀ n, readAt dv [.str "sweep", .str n] = none := by
      intro n
      rw [show [Key.str "sweep", Key.str n] = [.str "sweep"] ++ [.str n] from rfl, readAt_prefix_none hdvsw]
    have hpp : (readAt st.settings p).isSome := read_some_of_prefix (r := [.str "sweep"]) (by rw [hg]; rfl)
    have hs1 : Clean st1.settings := by
      rcases hcase' with ⟨_, h1⟩ | ⟨_, _, h1⟩
      · rw [h1]; exact hs
      · exact h1.1
    have hpp1 : (readAt st1.settings p).isSome := by
      rcases hcase' with ⟨_, h1⟩ | ⟨_, _, h1⟩
      · rw [h1]; exact hpp
      · have := h1.2.1 []
        rw [List.append_nil, readAt_nil] at this
        rw [this]; rfl
    have hread : readAt st1.settings (p ++ [.str "sweep", .str "default"]) = some dv ∨
        (readAt st1.settings (p ++ [.str "sweep", .str "default"]) = none ∧ readAt st1.settings p = some dv) := by
      rcases hcase' with ⟨_, h1⟩ | ⟨_, _, h1⟩
      · rw [h1]; exact Or.inl hdv
      · refine Or.inr ⟨by rw [h1.2.1]; exact hdvsw2 _, ?_⟩
        have := h1.2.1 []
        rw [List.append_nil, readAt_nil] at this
        exact this
    unfold visitSwept
    rw [leafCheck_sweep chk hc hs, hg, hsv]
    simp only [hgi, hdict, if_true, hact]
    cases hon : st.active with
    | true =>
      simp only [if_true]
      have hd1 : ∀ v, readAt st1.settings (p ++ [.str "sweep", .str "default"]) = some v → chk d v = .ok := by
        intro v hv
        rcases hcase' with ⟨hrs, h1⟩ | ⟨_, _, h1⟩
        · rw [h1, hdv] at hv
          cases hv
          rcases hcase with ⟨_, _, _, h, _⟩ | ⟨hx, _, _⟩
          · exact h
          · rw [hon] at hx
            rcases hx with hx | hx
            · cases hx
            · rw [hx] at hrs; cases hrs
        · rw [h1.2.1, hdvsw2] at hv; cases hv
      have hr1 : ∀ v, readAt st1.settings (p ++ [.str "sweep", .str "range"]) = some v → chk r v = .ok := by
        intro v hv
        rcases hcase' with ⟨hrs, h1⟩ | ⟨_, _, h1⟩
        · rw [h1] at hv
          rcases hcase with ⟨_, rv, hrv, _, h⟩ | ⟨hx, _, _⟩
          · rw [hv] at hrv; cases hrv; exact h
          · rw [hon] at hx
            rcases hx with hx | hx
            · cases hx
            · rw [hx] at hrs; cases hrs
        · rw [h1.2.1, hdvsw2] at hv; cases hv
      rw [(visitChild chk hc hs1 keyDefault_ne.1 keyDefault_ne.2 (st' := st1)).2 ⟨⟨d, hd, hd1⟩, rfl⟩]
      simp only
      exact ⟨st1, (visitChild chk hc hs1 keyRange_ne.1 keyRange_ne.2).2 ⟨⟨r, hr, hr1⟩, rfl⟩⟩
    | false =>
      simp only [Bool.false_eq_true, if_false]
      rcases hcase with ⟨hx, _⟩ | ⟨_, hn, hchk⟩
      · rw [hon] at hx; cases hx
      obtain ⟨s', hw, hsd⟩ := (sweepDefault_given chk hs1 he hsv hpp1 hdvc hread).2 hn ⟨d, hd, hchk hon⟩
      rw [hsd]
      simp only
      have hnone : ∀ n, readAt s' (p ++ [.str "sweep", .str n]) = none := fun n => by rw [hw.2.1, hdvsw2]
      rw [(visitChild chk hc hw.1 (st := { st1 with settings := s' }) keyDefault_ne.1 keyDefault_ne.2
        (st' := { st1 with settings := s' })).2 ⟨⟨d, hd, fun v hv => by rw [hnone] at hv; cases hv⟩, rfl⟩]
      simp only
      exact ⟨_, (visitChild chk hc hw.1 (st := { st1 with settings := s' }) keyRange_ne.1 keyRange_ne.2).2
        ⟨⟨r, hr, fun v hv => by rw [hnone] at hv; cases hv⟩, rfl⟩⟩

end GeNSIT
