import Verif.Config.ValidateProps
import Verif.Config.Props

/-!
# Coupled sweeps (C101)

What an accepted validation records about the sweeps that are tied to a target.
-/

namespace GeNSIT.Spec

open GeNSIT

/-- The sweep given at `p` is marked as coupled. -/
def Coupled (s : Cfg) (p : List Key) : Prop := ∃ c, readAt s (p ++ [.str "sweep", .str "coupled"]) = some c ∧ c.truthy = true

/-- The sweep given at `p` is coupled to the target called `t`. -/
def CoupledTo (s : Cfg) (p : List Key) (t : String) : Prop :=
  Coupled s p ∧ readAt s (p ++ [.str "sweep", .str "target_name"]) = some (.leaf (.str t))

/-- Some entry of the settings has the key `k`. -/
def Occurs (s : Cfg) (k : Key) : Prop := ∃ q, HasPath s q ∧ q.getLast? = some k

end GeNSIT.Spec

namespace GeNSIT

open Spec

theorem coupled_not {s : Cfg} {p : List Key} : ¬ NotCoupled s p ↔ Coupled s p := by
  unfold NotCoupled Coupled
  push Not
  simp

/-! ### Checks that leave the groups alone -/

theorem checkDefault_coupled {chk : ValueCheck} {sv v : Cfg} {st st' : VState} (h : checkDefault chk sv v st = .ok st') :
    st' = st := by
  unfold checkDefault at h
  repeat' split at h
  all_goals first | (cases h; done) | (cases h; rfl)

theorem sweepDefault_coupled {chk : ValueCheck} {sch sv : Cfg} {p : List Key} {b : Bool} {st st' : VState}
    (h : sweepDefault chk sch sv p b st = .ok st') : st'.coupled = st.coupled := by
  unfold sweepDefault at h
  repeat' split at h
  all_goals first
    | (cases h; done)
    | rw [checkDefault_coupled h]
    | (cases h; rfl)

theorem checkValue_coupled {chk : ValueCheck} {sv v : Cfg} {st : VState} {x : VState × Bool} (h : checkValue chk sv v st = .ok x) :
    x.1 = st := by
  unfold checkValue at h
  split at h <;> first | (cases h; done) | (cases h; rfl)

theorem visitPlain_coupled {chk : ValueCheck} {sch : Cfg} (hc : Clean sch) {p : List Key} (he : EndsInName p)
    (hl : p.getLast? ≠ some (.str "sweep")) {st st' : VState} (hs : Clean st.settings) (h : visitPlain chk sch p st = .ok st') :
    st'.coupled = st.coupled := by
  obtain ⟨_, rfl⟩ := (visitPlain_iff chk hc hs he hl).1 h
  unfold plainResult
  split <;> rfl

/-! ### The step that joins a group -/

/-- A group after the sweep at `p`, named `n`, has joined the target `t`. -/
structure Joined (st st' : VState) (t : String) (n : Key) (p : List Key) (cur : Cfg) : Prop where
  target : Occurs cur (.str t)
  group : ∃ base, st'.coupled = keySet st.coupled (.str t) (keySet base n p) ∧
    (st.coupled.lookup (.str t) = some base ∨ (st.coupled.lookup (.str t) = none ∧ ∃ q, base = [(.str t, q)] ∧
      (st.isolated.lookup (.str t) = some q ∨
        (st.isolated.lookup (.str t) = none ∧ (pathFind (.str t) cur [] []).2.head? = some q))))

theorem recordCoupled_joined {p : List Key} {es : List (Key × Cfg)} {st st' : VState} (hs : Clean st.settings) {n : Key}
    (hn : p.getLast? = some n) (h : recordCoupled (p ++ [.str "sweep"]) es st = .ok st') :
    ∃ t, es.lookup (.str "target_name") = some (.leaf (.str t)) ∧ Joined st st' t n p st.settings := by
  unfold recordCoupled at h
  rw [List.dropLast_concat, hn] at h
  split at h
  swap; · cases h
  rename_i t name ht hname
  cases hname
  split at h
  swap; · cases h
  rename_i hex
  refine ⟨t, ht, ((C32_exists_iff_found (.str t) st.settings hs.wf).2).1 hex, ?_⟩
  split at h
  · rename_i grp hgrp
    cases h
    exact ⟨grp, rfl, Or.inl hgrp⟩
  · rename_i hgrp
    split at h
    · rename_i ip hip
      cases h
      exact ⟨_, rfl, Or.inr ⟨hgrp, ip, rfl, Or.inl hip⟩⟩
    · rename_i hip
      split at h
      · cases h
      · rename_i tp rest htp
        cases h
        exact ⟨_, rfl, Or.inr ⟨hgrp, tp, rfl, Or.inr ⟨hip, by rw [htp]; rfl⟩⟩⟩

theorem Joined.mono {st st' st0 : VState} {t : String} {n : Key} {p : List Key} {cur : Cfg}
    (h1 : st0.coupled = st.coupled) (h2 : st0.isolated = st.isolated) (h : Joined st0 st' t n p cur) : Joined st st' t n p cur :=
  ⟨h.target, by rw [← h1, ← h2]; exact h.group⟩

/-- The settings in force when the sweep at `p` joins: unchanged, or with the default of a sweep without a range. -/
def JoinSettings (st : VState) (p : List Key) (cur : Cfg) : Prop :=
  cur = st.settings ∨ ∃ dv, readAt st.settings (p ++ [.str "sweep", .str "range"]) = none ∧
    readAt st.settings (p ++ [.str "sweep", .str "default"]) = some dv ∧ Written st.settings cur p dv

theorem sweepGiven_joined {sch : Cfg} {p : List Key} {n : Key} {g : Cfg} {st st1 : VState} (hs : Clean st.settings)
    (he : EndsInName p) (hn : p.getLast? = some n) (hg : readAt st.settings (p ++ [.str "sweep"]) = some g)
    (h : sweepGiven sch (p ++ [.str "sweep"]) g st = .ok st1) :
    (Coupled st.settings p → ∃ t cur, CoupledTo st.settings p t ∧ JoinSettings st p cur ∧ Joined st st1 t n p cur) ∧
    (¬ Coupled st.settings p → st1.coupled = st.coupled) := by
  unfold sweepGiven at h
  rw [List.dropLast_concat] at h
  split at h
  swap; · cases h
  split at h
  swap; · cases h
  rename_i es
  split at h
  swap; · cases h
  rename_i hdef
  obtain ⟨dv, hdv⟩ := Option.isSome_iff_exists.1 hdef
  have hpd : readAt st.settings (p ++ [.str "sweep", .str "default"]) = some dv := by rw [app2, readAt_snoc hg, hdv]
  have hpr : readAt st.settings (p ++ [.str "sweep", .str "range"]) = es.lookup (.str "range") := by rw [app2, readAt_snoc hg]
  have hpt : readAt st.settings (p ++ [.str "sweep", .str "target_name"]) = es.lookup (.str "target_name") := by
    rw [app2, readAt_snoc hg]
  have hpp : (readAt st.settings p).isSome := read_some_of_prefix (r := [.str "sweep"]) (by rw [hg]; rfl)
  have hcoup := (coupled_iff hg).trans coupled_not
  split at h
  · split at h
    · rename_i hco
      refine ⟨fun hC => ?_, fun hh => absurd (hcoup.1 hco) hh⟩
      obtain ⟨t, ht, hj⟩ := recordCoupled_joined hs hn h
      exact ⟨t, _, ⟨hC, by rw [hpt, ht]⟩, Or.inl rfl, hj⟩
    · rename_i hco
      refine ⟨fun hC => absurd (hcoup.2 hC) hco, fun _ => ?_⟩
      unfold recordIsolated at h
      repeat' split at h
      all_goals first | (cases h; done) | (cases h; rfl)
  · rename_i hrange
    have hnr : es.lookup (.str "range") = none := by
      cases hx : es.lookup (.str "range") with
      | none => rfl
      | some v => rw [hx] at hrange; exact absurd rfl hrange
    rw [pathVal_clean hs (endsInName_snoc _ _), ← app2, hpd, Option.getD_some] at h
    split at h
    swap; · cases h
    rename_i s' hset
    have hnm := names_of hs he hpp hset
    obtain ⟨s'', hset', hw⟩ := written_of hs (clean_read hs hpd) he hpp hnm
    rw [hset'] at hset
    simp only [Option.some.injEq, Prod.mk.injEq, and_true] at hset
    subst hset
    split at h
    · rename_i hco
      refine ⟨fun hC => ?_, fun hh => absurd (hcoup.1 hco) hh⟩
      obtain ⟨t, ht, hj⟩ := recordCoupled_joined (st := { st with settings := s'' }) hw.1 hn h
      exact ⟨t, s'', ⟨hC, by rw [hpt, ht]⟩, Or.inr ⟨dv, by rw [hpr, hnr], hpd, hw⟩,
        Joined.mono (st0 := { st with settings := s'' }) rfl rfl hj⟩
    · rename_i hco
      refine ⟨fun hC => absurd (hcoup.2 hC) hco, fun _ => ?_⟩
      cases h; rfl

theorem sweepGiven_dict {sch : Cfg} {p : List Key} {g : Cfg} {st st1 : VState} (h : sweepGiven sch p g st = .ok st1) :
    g.isDict = true := by
  unfold sweepGiven at h
  split at h
  swap; · cases h
  split at h
  · rfl
  · cases h

theorem visitSwept_joined (chk : ValueCheck) {sch : Cfg} {p : List Key} {n : Key} {st st' : VState} (hc : Clean sch)
    (hs : Clean st.settings) (he : EndsInName p) (hn : p.getLast? = some n) (h : visitSwept chk sch p st = .ok st') :
    (Coupled st.settings p → ∃ t cur, CoupledTo st.settings p t ∧ JoinSettings st p cur ∧ Joined st st' t n p cur) ∧
    (¬ Coupled st.settings p → st'.coupled = st.coupled) := by
  cases hg : readAt st.settings (p ++ [.str "sweep"]) with
  | none =>
    obtain ⟨_, rfl⟩ := (visitSwept_none chk hc hs he hg).1 h
    refine ⟨fun ⟨c, hcc, _⟩ => ?_, fun _ => rfl⟩
    rw [app2, readAt_prefix_none hg] at hcc
    cases hcc
  | some g =>
    unfold visitSwept at h
    rw [leafCheck_sweep chk hc hs, hg] at h
    cases hsv : readAt sch (p ++ [.str "sweep"]) with
    | none => rw [hsv] at h; cases h
    | some sv =>
      rw [hsv] at h
      simp only at h
      cases hgi : sweepGiven sch (p ++ [.str "sweep"]) g st with
      | error e => rw [hgi] at h; cases h
      | ok st1 =>
        rw [hgi] at h
        simp only [sweepGiven_dict hgi, if_true] at h
        have hj := sweepGiven_joined hs he hn hg hgi
        suffices hk : st'.coupled = st1.coupled by
          refine ⟨fun hC => ?_, fun hC => hk.trans (hj.2 hC)⟩
          obtain ⟨t, cur, h1, h2, h3⟩ := hj.1 hC
          exact ⟨t, cur, h1, h2, h3.target, by rw [hk]; exact h3.group⟩
        have hs1 : Clean st1.settings := by
          obtain ⟨_, _, _, _, dv, _, h1 | h1⟩ := sweepGiven_ok hc hs he hg hgi
          · rw [h1.2]; exact hs
          · exact h1.2.2.1
        split at h
        · cases h
        · rename_i st3 heq
          split at heq <;> cases heq
        · rename_i st3 heq
          split at heq
          · cases heq
          · rename_i st4 hmid
            cases heq
            obtain ⟨hst4, hcl⟩ : st3.coupled = st1.coupled ∧ Clean st3.settings := by
              split at hmid
              · cases hmid; exact ⟨rfl, hs1⟩
              · refine ⟨sweepDefault_coupled hmid, ?_⟩
                obtain ⟨_, _, hact, _, dv, hdv, hcase⟩ := sweepGiven_ok hc hs he hg hgi
                unfold sweepDefault at hmid
                rw [if_pos rfl] at hmid
                split at hmid
                · cases hmid
                · rename_i v hv
                  split at hmid
                  · rename_i s' hset
                    have := checkDefault_coupled hmid
                    subst this
                    rw [List.dropLast_concat] at hset hv
                    have hvc : Clean v := by
                      rw [pathGet_clean hs1 (endsInName_snoc _ _), pathGet_clean hs1 he] at hv
                      rcases Option.or_eq_some_iff.1 hv with hv | ⟨_, hv⟩
                      · exact clean_read hs1 hv
                      · exact clean_read hs1 hv
                    have hpp1 : (readAt st1.settings p).isSome := by
                      have hpp : (readAt st.settings p).isSome := read_some_of_prefix (r := [.str "sweep"]) (by rw [hg]; rfl)
                      rcases hcase with ⟨_, h1⟩ | ⟨_, _, h1⟩
                      · rw [h1]; exact hpp
                      · have := h1.2.1 []
                        rw [List.append_nil, readAt_nil] at this
                        rw [this]; rfl
                    obtain ⟨s'', h1, h2⟩ := written_of hs1 hvc he hpp1 (names_of hs1 he hpp1 hset)
                    rw [h1] at hset
                    cases hset
                    exact h2.1
                  · cases hmid
            cases hv1 : visitPlain chk sch (p ++ [.str "sweep"] ++ [.str "default"]) st3 with
            | error e => rw [hv1] at h; cases h
            | ok st5 =>
              rw [hv1] at h
              simp only at h
              rw [visitChild chk hc hcl keyDefault_ne.1 keyDefault_ne.2] at hv1
              obtain ⟨_, rfl⟩ := hv1
              rw [visitChild chk hc hcl keyRange_ne.1 keyRange_ne.2] at h
              obtain ⟨_, rfl⟩ := h
              exact hst4

theorem Joined.keep {st st' : VState} {t : String} {n : Key} {p : List Key} {cur : Cfg} (h : Joined st st' t n p cur) (k : Key)
    (hk : k ≠ .str t) : st'.coupled.lookup k = st.coupled.lookup k := by
  obtain ⟨base, h1, _⟩ := h.group
  rw [h1, keySet_ne _ _ hk]

theorem occurs_written {s s' dv : Cfg} {p : List Key} (he : EndsInName p)
    (hd : readAt s (p ++ [.str "sweep", .str "default"]) = some dv) (hr : ∀ r, readAt s' (p ++ r) = readAt dv r)
    (hf : ∀ q, Unrelated p q → readAt s' q = readAt s q) {k : Key} (h : Occurs s' k) : Occurs s k := by
  obtain ⟨q, ⟨hq0, hq⟩, hl⟩ := h
  have hpp : (readAt s p).isSome := read_some_of_prefix (r := [.str "sweep", .str "default"]) (by rw [hd]; rfl)
  by_cases h1 : p <+: q
  · obtain ⟨r, rfl⟩ := h1
    rcases List.eq_nil_or_concat r with rfl | ⟨r', k', rfl⟩
    · rw [List.append_nil] at hl
      exact ⟨p, ⟨he.ne, hpp⟩, hl⟩
    · rw [hr] at hq
      refine ⟨p ++ [.str "sweep", .str "default"] ++ (r'.concat k'), ⟨by simp, ?_⟩, ?_⟩
      · rw [readAt_append, hd]; exact hq
      · rw [← hl, List.getLast?_append, List.getLast?_append]; simp [List.concat_eq_append]
  · by_cases h2 : q <+: p
    · obtain ⟨r, rfl⟩ := h2
      exact ⟨q, ⟨hq0, read_some_of_prefix hpp⟩, hl⟩
    · rw [hf q ⟨h1, h2⟩] at hq
      exact ⟨q, ⟨hq0, hq⟩, hl⟩

theorem occurs_step {st st' : VState} {x : List Key × Bool} (hx : GoodParam x) (he : StepEffect st st' x) {k : Key}
    (h : Occurs st'.settings k) : Occurs st.settings k := by
  by_cases hd : x.2 = true ∧ ∃ dv, Replaced st.settings st.active x.1 dv
  · obtain ⟨hb, dv, hd⟩ := hd
    exact occurs_written hx.ends hd.1 (he.replaced hb dv hd) (fun q hq => he.frame q fun _ _ _ => hq) h
  · obtain ⟨q, ⟨hq0, hq⟩, hl⟩ := h
    refine ⟨q, ⟨hq0, ?_⟩, hl⟩
    rw [← he.frame q fun dv hb hr => absurd ⟨hb, dv, hr⟩ hd]
    exact hq

theorem occurs_join {st : VState} {p : List Key} {cur : Cfg} (he : EndsInName p) (h : JoinSettings st p cur) {k : Key}
    (hk : Occurs cur k) : Occurs st.settings k := by
  rcases h with rfl | ⟨dv, _, hd, hw⟩
  · exact hk
  · exact occurs_written he hd hw.2.1 hw.2.2 hk

theorem coupled_congr {s s' : Cfg} {p : List Key} (h : ∀ r, readAt s' (p ++ r) = readAt s (p ++ r)) :
    Coupled s' p ↔ Coupled s p := by unfold Coupled; rw [h]

theorem coupledTo_congr {s s' : Cfg} {p : List Key} {t : String} (h : ∀ r, readAt s' (p ++ r) = readAt s (p ++ r)) :
    CoupledTo s' p t ↔ CoupledTo s p t := by unfold CoupledTo; rw [h, coupled_congr h]

/-- Where the path of a target may come from: a registered sweep, or a search of the settings for a key with its name. -/
def TargetPath (iso : Key → List Key → Prop) (still : Prop) (s : Cfg) (t : String) (q : List Key) : Prop :=
  iso (.str t) q ∨ ∃ cur, (pathFind (.str t) cur [] []).2.head? = some q ∧ Clean cur ∧ (still → cur = s)

/-- The groups hold members of `M` and targets only, and every group has its target. -/
structure CoupledOk (M : String → Key → List Key → Prop) (T : String → List Key → Prop)
    (gs : List (Key × List (Key × List Key))) : Prop where
  named : ∀ k grp, gs.lookup k = some grp → ∃ t, k = .str t
  entries : ∀ t grp n q, gs.lookup (.str t) = some grp → grp.lookup n = some q → M t n q ∨ (n = .str t ∧ T t q)
  target : ∀ t grp, gs.lookup (.str t) = some grp → (grp.lookup (.str t)).isSome

theorem CoupledOk.join {M : String → Key → List Key → Prop} {T : String → List Key → Prop} {st st' : VState} {t : String} {n : Key}
    {p : List Key} {cur : Cfg} (h : CoupledOk M T st.coupled) (hj : Joined st st' t n p cur) (hM : M t n p)
    (hT : ∀ q, (st.isolated.lookup (.str t) = some q ∨ (pathFind (.str t) cur [] []).2.head? = some q) → T t q) :
    CoupledOk M T st'.coupled := by
  obtain ⟨base, h1, h2⟩ := hj.group
  have hb : ∀ n q, base.lookup n = some q → M t n q ∨ (n = .str t ∧ T t q) := by
    intro n q hq
    rcases h2 with h2 | ⟨_, q', rfl, h3⟩
    · exact h.entries t base n q h2 hq
    · simp only [List.lookup_cons, List.lookup_nil] at hq
      split at hq
      · rename_i heq
        cases hq
        refine Or.inr ⟨by simpa using heq, hT _ ?_⟩
        rcases h3 with h3 | h3
        · exact Or.inl h3
        · exact Or.inr h3.2
      · cases hq
  have hbt : (base.lookup (.str t)).isSome := by
    rcases h2 with h2 | ⟨_, q', rfl, h3⟩
    · exact h.target t base h2
    · simp
  refine ⟨?_, ?_, ?_⟩
  · intro k grp hk
    by_cases hkt : k = .str t
    · exact ⟨t, hkt⟩
    · rw [hj.keep k hkt] at hk
      exact h.named k grp hk
  · intro t' grp n' q hk hq
    by_cases hkt : t' = t
    · subst hkt
      rw [h1, keySet_self] at hk
      cases hk
      by_cases hn : n' = n
      · subst hn
        rw [keySet_self] at hq
        cases hq
        exact Or.inl hM
      · rw [keySet_ne _ _ hn] at hq
        exact hb n' q hq
    · rw [hj.keep (.str t') (by simpa using hkt)] at hk
      exact h.entries t' grp n' q hk hq
  · intro t' grp hk
    by_cases hkt : t' = t
    · subst hkt
      rw [h1, keySet_self] at hk
      cases hk
      by_cases hn : Key.str t' = n
      · rw [← hn, keySet_self]; rfl
      · rw [keySet_ne _ _ hn]; exact hbt
    · rw [hj.keep (.str t') (by simpa using hkt)] at hk
      exact h.target t' grp hk

theorem Joined.present {st st' : VState} {t : String} {n : Key} {p : List Key} {cur : Cfg} (h : Joined st st' t n p cur) :
    ∃ grp, st'.coupled.lookup (.str t) = some grp ∧ grp.lookup n = some p := by
  obtain ⟨base, h1, _⟩ := h.group
  exact ⟨_, by rw [h1, keySet_self], keySet_self _ _ _⟩

theorem Joined.persists {st st' : VState} {t : String} {n : Key} {p : List Key} {cur : Cfg} (h : Joined st st' t n p cur)
    {t' : String} {m : Key} {q : List Key} (hne : t' ≠ t ∨ m ≠ n)
    (hg : ∃ grp, st.coupled.lookup (.str t') = some grp ∧ grp.lookup m = some q) :
    ∃ grp, st'.coupled.lookup (.str t') = some grp ∧ grp.lookup m = some q := by
  obtain ⟨grp, h1, h2⟩ := hg
  by_cases ht : t' = t
  · subst ht
    obtain ⟨base, h3, h4⟩ := h.group
    rw [h1] at h4
    rcases h4 with h4 | ⟨h4, _⟩
    · cases h4
      refine ⟨_, by rw [h3, keySet_self], ?_⟩
      rw [keySet_ne _ _ (hne.resolve_left (by simp))]
      exact h2
    · cases h4
  · rw [h.keep _ (by simpa using ht)]
    exact ⟨grp, h1, h2⟩

theorem visit_kept (chk : ValueCheck) {sch : Cfg} {x : List Key × Bool} {st st' : VState} (hc : Clean sch) (hs : Clean st.settings)
    (hx : GoodParam x) (hD : x.2 = true → readAt st.settings (x.1 ++ [.str "sweep", .str "default", .str "sweep"]) = none)
    (h : visit chk sch x st = .ok st') (hno : ¬ (x.2 = true ∧ ∃ dv, Replaced st.settings st.active x.1 dv)) :
    st'.settings = st.settings := by
  obtain ⟨p, b⟩ := x
  unfold visit at h
  cases b with
  | false =>
    simp only [Bool.false_eq_true, if_false] at h
    obtain ⟨_, rfl⟩ := (visitPlain_iff chk hc hs hx.ends hx.last).1 h
    unfold plainResult
    split <;> rfl
  | true =>
    simp only [if_true] at h
    exact (visitSwept_ok chk hc hs hx.ends (hD rfl) h).2.kept fun hh => hno ⟨rfl, hh⟩

theorem visit_joined (chk : ValueCheck) {sch : Cfg} {x : List Key × Bool} {n : Key} {st st' : VState} (hc : Clean sch)
    (hs : Clean st.settings) (hx : GoodParam x) (hn : x.1.getLast? = some n) (h : visit chk sch x st = .ok st') :
    (x.2 = true → Coupled st.settings x.1 → ∃ t cur, CoupledTo st.settings x.1 t ∧ JoinSettings st x.1 cur ∧ Joined st st' t n x.1 cur) ∧
    (¬ (x.2 = true ∧ Coupled st.settings x.1) → st'.coupled = st.coupled) := by
  obtain ⟨p, b⟩ := x
  unfold visit at h
  cases b with
  | false =>
    simp only [Bool.false_eq_true, if_false] at h
    exact ⟨fun hb => (by cases hb), fun _ => visitPlain_coupled hc hx.ends hx.last hs h⟩
  | true =>
    simp only [if_true] at h
    obtain ⟨h1, h2⟩ := visitSwept_joined chk hc hs hx.ends hn h
    exact ⟨fun _ => h1, fun hh => h2 fun hC => hh ⟨rfl, hC⟩⟩

/-- The sweep `(p, n)` belongs to the target `t`, for the parameters `X` and the settings `s`. -/
def Member (X : List (List Key × Bool)) (s : Cfg) (t : String) (n : Key) (p : List Key) : Prop :=
  (p, true) ∈ X ∧ CoupledTo s p t ∧ p.getLast? = some n

/-- What is registered as isolated is a sweep with a range that is not coupled, under its name. -/
def IsoOf (X : List (List Key × Bool)) (s : Cfg) (k : Key) (q : List Key) : Prop :=
  (q, true) ∈ X ∧ Registers s (q, true) ∧ k = sweepName q

theorem endsInName_last {p : List Key} (h : EndsInName p) : ∃ n, p.getLast? = some n := by
  obtain ⟨r, n, rfl⟩ := h; exact ⟨_, List.getLast?_concat⟩

theorem visits_joined (chk : ValueCheck) {sch : Cfg} (hc : Clean sch) (X : List (List Key × Bool)) (s : Cfg) (still : Prop)
    (act : Bool) (hstill : still → ∀ x ∈ X, x.2 = true → ∀ dv, ¬ Replaced s act x.1 dv) :
    ∀ (xs : List (List Key × Bool)) (st st' : VState), (∀ x ∈ xs, x ∈ X) →
    Clean st.settings → (∀ x ∈ xs, GoodParam x) → xs.Pairwise (fun x y => Unrelated x.1 y.1) →
    (∀ x ∈ xs, x.2 = true → readAt st.settings (x.1 ++ [.str "sweep", .str "default", .str "sweep"]) = none) →
    (∀ x ∈ xs, ∀ r, readAt st.settings (x.1 ++ r) = readAt s (x.1 ++ r)) → st.active = act →
    (∀ k, Occurs st.settings k → Occurs s k) →
    (still → st.settings = s) →
    (∀ k q, st.isolated.lookup k = some q → IsoOf X s k q) →
    CoupledOk (Member X s) (TargetPath (IsoOf X s) still s) st.coupled →
    visits chk sch xs st = .ok st' →
    CoupledOk (Member X s) (TargetPath (IsoOf X s) still s) st'.coupled ∧
    (∀ x ∈ xs, x.2 = true → Coupled s x.1 → ∃ t, CoupledTo s x.1 t ∧ Occurs s (.str t)) ∧
    (∀ t m q, (∀ x ∈ xs, x.2 = true → CoupledTo s x.1 t → x.1.getLast? = some m → x.1 = q) →
      ((∃ grp, st.coupled.lookup (.str t) = some grp ∧ grp.lookup m = some q) ∨
        ((q, true) ∈ xs ∧ CoupledTo s q t ∧ q.getLast? = some m)) →
      ∃ grp, st'.coupled.lookup (.str t) = some grp ∧ grp.lookup m = some q) ∧
    (∀ t, ((st.coupled.lookup (.str t)).isSome ∨ ∃ x ∈ xs, x.2 = true ∧ CoupledTo s x.1 t) →
      (st'.coupled.lookup (.str t)).isSome) := by
  intro xs
  induction xs with
  | nil =>
    intro st st' _ _ _ _ _ _ _ _ _ _ hG h
    simp only [visits, Except.ok.injEq] at h
    subst h
    refine ⟨hG, by simp, fun t m q _ hq => ?_, fun t ht => ?_⟩
    · rcases hq with hq | ⟨hq, _⟩
      · exact hq
      · cases hq
    · rcases ht with ht | ⟨x, hx, _⟩
      · exact ht
      · cases hx
  | cons x xs ih =>
    intro st st' hX hs hg hp hD hag hact hocc hst hiso hG h
    rw [visits] at h
    cases hv : visit chk sch x st with
    | error e => rw [hv] at h; cases h
    | ok st1 =>
      rw [hv] at h
      simp only at h
      rw [List.pairwise_cons] at hp
      have hgx := hg x (by simp)
      obtain ⟨_, he⟩ := visit_ok chk hc hs hgx (hD x (by simp)) hv
      have hsame : ∀ y ∈ xs, ∀ r, readAt st1.settings (y.1 ++ r) = readAt st.settings (y.1 ++ r) :=
        fun y hy r => he.frame _ fun dv _ _ => (hp.1 y hy).append r
      obtain ⟨n, hn⟩ := endsInName_last hgx.ends
      have hagx := hag x (by simp)
      have hstep := visit_joined chk hc hs hgx hn hv
      have hG1 : CoupledOk (Member X s) (TargetPath (IsoOf X s) still s) st1.coupled := by
        by_cases hC : x.2 = true ∧ Coupled st.settings x.1
        · obtain ⟨t, cur, h1, h2, h3⟩ := hstep.1 hC.1 hC.2
          refine hG.join h3 ⟨?_, (coupledTo_congr hagx).1 h1, hn⟩ ?_
          · rw [← hC.1]; exact hX x (by simp)
          · rintro q (hq | hq)
            · exact Or.inl (hiso _ _ hq)
            · refine Or.inr ⟨cur, hq, ?_, fun hh => ?_⟩
              · rcases h2 with rfl | ⟨dv, _, _, hw⟩
                · exact hs
                · exact hw.1
              · rcases h2 with rfl | ⟨dv, hr, hd, hw⟩
                · exact hst hh
                · exfalso
                  refine hstill hh x (hX x (by simp)) hC.1 dv ⟨?_, Or.inr ?_⟩
                  · rw [← hagx]; exact hd
                  · rw [← hagx]; exact hr
        · rw [hstep.2 hC]; exact hG
      have hiso1 : ∀ k q, st1.isolated.lookup k = some q → IsoOf X s k q := by
        intro k q hq
        by_cases hr : Registers st.settings x
        · rw [he.registered hr] at hq
          by_cases hk : k = sweepName x.1
          · rw [hk, keySet_self] at hq
            cases hq
            have hx2 : x = (x.1, true) := by rw [← hr.1]
            refine ⟨?_, ?_, hk⟩
            · rw [← hx2]; exact hX x (by simp)
            · rw [← hx2]; exact (registers_congr hagx).1 hr
          · rw [keySet_ne _ _ hk] at hq; exact hiso k q hq
        · rw [he.unregistered hr] at hq; exact hiso k q hq
      have hst1 : still → st1.settings = s := by
        intro hh
        rw [visit_kept chk hc hs hgx (hD x (by simp)) hv, hst hh]
        rintro ⟨hb, dv, hd⟩
        rw [hact] at hd
        exact hstill hh x (hX x (by simp)) hb dv ((replaced_congr hagx).1 hd)
      obtain ⟨i1, i2, i3, i4⟩ := ih st1 st' (fun y hy => hX y (by simp [hy])) he.clean (fun y hy => hg y (by simp [hy])) hp.2
        (fun y hy hb => by rw [hsame y hy]; exact hD y (by simp [hy]) hb)
        (fun y hy r => (hsame y hy r).trans (hag y (by simp [hy]) r)) (he.active.trans hact)
        (fun k hk => hocc k (occurs_step hgx he hk)) hst1 hiso1 hG1 h
      refine ⟨i1, ?_, ?_, ?_⟩
      · intro y hy hb hC
        rcases List.mem_cons.1 hy with rfl | hy
        · obtain ⟨t, cur, h1, h2, h3⟩ := hstep.1 hb ((coupled_congr hagx).2 hC)
          exact ⟨t, (coupledTo_congr hagx).1 h1, hocc _ (occurs_join hgx.ends h2 h3.target)⟩
        · exact i2 y hy hb hC
      · intro t m q huniq hq
        refine i3 t m q (fun y hy => huniq y (by simp [hy])) ?_
        rcases hq with hq | ⟨hq, h4, h5⟩
        · left
          by_cases hC : x.2 = true ∧ Coupled st.settings x.1
          · obtain ⟨t', cur, h1, h2, h3⟩ := hstep.1 hC.1 hC.2
            by_cases hsm : t = t' ∧ m = n
            · obtain ⟨rfl, rfl⟩ := hsm
              have := huniq x (by simp) hC.1 ((coupledTo_congr hagx).1 h1) hn
              subst this
              exact h3.present
            · refine h3.persists ?_ hq
              by_cases ht : t = t'
              · exact Or.inr fun hm => hsm ⟨ht, hm⟩
              · exact Or.inl ht
          · rw [hstep.2 hC]; exact hq
        · rcases List.mem_cons.1 hq with rfl | hq
          · left
            obtain ⟨t', cur, h1, h2, h3⟩ := hstep.1 rfl ((coupled_congr hagx).2 h4.1)
            have ht : t' = t := by
              have h6 := ((coupledTo_congr hagx).1 h1).2
              rw [h4.2] at h6
              simpa using h6.symm
            subst ht
            rw [h5] at hn
            cases hn
            exact h3.present
          · exact Or.inr ⟨hq, h4, h5⟩
      · intro t ht
        refine i4 t ?_
        by_cases hC : x.2 = true ∧ Coupled st.settings x.1
        · obtain ⟨t', cur, h1, h2, h3⟩ := hstep.1 hC.1 hC.2
          by_cases htt : t = t'
          · subst htt
            obtain ⟨grp, hgrp, _⟩ := h3.present
            left; rw [hgrp]; rfl
          · rcases ht with ht | ⟨y, hy, hb, hy'⟩
            · left; rw [h3.keep _ (by simpa using htt)]; exact ht
            · rcases List.mem_cons.1 hy with rfl | hy
              · exfalso
                have h6 := ((coupledTo_congr hagx).1 h1).2
                rw [hy'.2] at h6
                exact htt (by simpa using h6)
              · exact Or.inr ⟨y, hy, hb, hy'⟩
        · rcases ht with ht | ⟨y, hy, hb, hy'⟩
          · left; rw [hstep.2 hC]; exact ht
          · rcases List.mem_cons.1 hy with rfl | hy
            · exact absurd ⟨hb, (coupled_congr hagx).2 hy'.1⟩ hC
            · exact Or.inr ⟨y, hy, hb, hy'⟩

theorem accepted_joined {chk : ValueCheck} {params sch s : Cfg} {st : VState} (hp : ParamFile params) (hc : Clean sch) (hs : Clean s)
    (hD : PlainDefaults params s) (h : validateConfig chk params sch s = .ok st) (still : Prop)
    (hstill : still → ∀ p dv, IsSwept params p → ¬ Replaced s (sweepsOn s) p dv) :
    ∃ X, (∀ p, (p, true) ∈ X ↔ IsSwept params p) ∧
      CoupledOk (Member X s) (TargetPath (IsoOf X s) still s) st.coupled ∧
      (∀ p, IsSwept params p → Coupled s p → ∃ t, CoupledTo s p t ∧ Occurs s (.str t)) ∧
      (∀ t n p, IsSwept params p → CoupledTo s p t → p.getLast? = some n →
        (∀ q, IsSwept params q → CoupledTo s q t → q.getLast? = some n → q = p) →
        ∃ grp, st.coupled.lookup (.str t) = some grp ∧ grp.lookup n = some p) ∧
      (∀ t p, IsSwept params p → CoupledTo s p t → (st.coupled.lookup (.str t)).isSome) := by
  obtain ⟨xs, hxs, hgood, hpw, _, hiff⟩ := hp.rest
  obtain ⟨_, h2⟩ := (validate_split chk hp hc hs hxs st).1 h
  have hsw : ∀ p, (p, true) ∈ xs ↔ IsSwept params p := by
    intro p
    rw [hiff]
    constructor
    · rintro ⟨_, ⟨h, _⟩ | ⟨_, h⟩⟩
      · cases h
      · exact h
    · intro h
      exact ⟨by rintro rfl; exact mode_notSwept hp h, Or.inr ⟨rfl, h⟩⟩
  have hsw' : ∀ x ∈ xs, x.2 = true → IsSwept params x.1 := by
    rintro ⟨p, b⟩ hx hb
    simp only at hb
    subst hb
    exact (hsw p).1 hx
  obtain ⟨i1, i2, i3, i4⟩ := visits_joined chk hc xs s still (sweepsOn s)
    (fun hh x hx hb dv => hstill hh x.1 dv (hsw' x hx hb)) xs (afterMode s) st (fun _ h => h) hs hgood hpw
    (fun x hx hb => hD x.1 (hsw' x hx hb)) (fun _ _ _ => rfl) rfl (fun _ h => h) (fun _ => rfl)
    (fun k q hq => by cases hq) ⟨fun k grp hk => (by cases hk), fun t grp n q hk => (by cases hk), fun t grp hk => (by cases hk)⟩ h2
  refine ⟨xs, hsw, i1, fun p h1 h2 => i2 (p, true) ((hsw p).2 h1) rfl h2, ?_, ?_⟩
  · intro t n p h1 h2 h3 huniq
    refine i3 t n p (fun x hx hb hc' hl => huniq x.1 (hsw' x hx hb) hc' hl) (Or.inr ⟨(hsw p).2 h1, h2, h3⟩)
  · intro t p h1 h2
    exact i4 t (Or.inr ⟨(p, true), (hsw p).2 h1, rfl, h2⟩)

/-! ## C101, coupled sweeps -/

/-- **C101 (coupled sweeps).**  After an accepted validation every coupled sweep names a target that occurs in the settings, the
target has a group that holds the target itself, and the sweep is in it under its own key if no other sweep of the group has
that key. -/
theorem C101_coupled_members (chk : ValueCheck) (params sch s : Cfg) (st : VState) (hp : ParamFile params) (hc : Clean sch)
    (hs : Clean s) (hD : PlainDefaults params s) (h : validateConfig chk params sch s = .ok st) (p : List Key)
    (hsw : IsSwept params p) (hco : Coupled s p) :
    ∃ t n grp, CoupledTo s p t ∧ Occurs s (.str t) ∧ p.getLast? = some n ∧ st.coupled.lookup (.str t) = some grp ∧
      (grp.lookup (.str t)).isSome ∧
      ((∀ q, IsSwept params q → CoupledTo s q t → q.getLast? = some n → q = p) → grp.lookup n = some p) := by
  obtain ⟨X, hX, hG, h1, h2, h3⟩ := accepted_joined hp hc hs hD h False (fun hf => hf.elim)
  obtain ⟨t, ht, hocc⟩ := h1 p hsw hco
  obtain ⟨n, hn⟩ := endsInName_last (swept_endsInName p params hp.toParamTree hp.noRootSweep hsw)
  obtain ⟨grp, hgrp⟩ := Option.isSome_iff_exists.1 (h3 t p hsw ht)
  refine ⟨t, n, grp, ht, hocc, hn, hgrp, hG.target t grp hgrp, fun huniq => ?_⟩
  obtain ⟨grp', h4, h5⟩ := h2 t n p hsw ht hn huniq
  rw [hgrp] at h4
  cases h4
  exact h5

/-- **C101 (contents of a group).**  An entry of the group of `t` is a sweep coupled to `t`, under its own key, or it is the
entry of `t`: then it is a sweep registered under that name, or a path found by searching the settings for the key `t`; if no
sweep was replaced by its default it is the first such path. -/
theorem C101_coupled_entries (chk : ValueCheck) (params sch s : Cfg) (st : VState) (hp : ParamFile params) (hc : Clean sch)
    (hs : Clean s) (hD : PlainDefaults params s) (h : validateConfig chk params sch s = .ok st) (k : Key)
    (grp : List (Key × List Key)) (hk : st.coupled.lookup k = some grp) :
    ∃ t, k = .str t ∧ ∀ n q, grp.lookup n = some q →
      (IsSwept params q ∧ CoupledTo s q t ∧ q.getLast? = some n) ∨
      (n = .str t ∧
        ((IsSwept params q ∧ NotCoupled s q ∧ (readAt s (q ++ [.str "sweep", .str "range"])).isSome ∧ sweepName q = .str t) ∨
          ((∃ q', q.Perm q' ∧ q'.getLast? = some (.str t)) ∧
            ((∀ p dv, IsSwept params p → ¬ Replaced s (sweepsOn s) p dv) →
              (pathFind (.str t) s [] []).2.head? = some q)))) := by
  obtain ⟨X, hX, hG, _⟩ := accepted_joined hp hc hs hD h (∀ p dv, IsSwept params p → ¬ Replaced s (sweepsOn s) p dv) (fun hf => hf)
  obtain ⟨t, rfl⟩ := hG.named k grp hk
  refine ⟨t, rfl, fun n q hq => ?_⟩
  rcases hG.entries t grp n q hk hq with ⟨h1, h2, h3⟩ | ⟨h1, h2⟩
  · exact Or.inl ⟨(hX q).1 h1, h2, h3⟩
  · refine Or.inr ⟨h1, ?_⟩
    rcases h2 with ⟨h2, h3, h4⟩ | ⟨cur, h2, h3, h4⟩
    · exact Or.inl ⟨(hX q).1 h2, h3.2.1, h3.2.2, h4.symm⟩
    · refine Or.inr ⟨?_, fun hst => by rw [← h4 hst]; exact h2⟩
      obtain ⟨P, _, hP, hF⟩ := C31_find_up_to_order_partial (.str t) cur h3.wf
      revert h2 hF
      cases (pathFind (Key.str t) cur [] []).2 with
      | nil => intro h2; cases h2
      | cons a r =>
        intro h2 hF
        cases h2
        cases hF with
        | cons ha _ => exact ⟨_, ha, ((hP _).1 (by simp)).2⟩

/-- **C101 (targets).**  A coupled sweep without a target name, or whose target occurs nowhere in the settings, is rejected. -/
theorem C101_target_required (chk : ValueCheck) (params sch s : Cfg) (hp : ParamFile params) (hc : Clean sch)
    (hs : Clean s) (hD : PlainDefaults params s) (p : List Key) (hsw : IsSwept params p) (hco : Coupled s p)
    (hbad : ∀ t, CoupledTo s p t → ¬ Occurs s (.str t)) : ∀ st, validateConfig chk params sch s ≠ .ok st := by
  intro st h
  obtain ⟨t, _, _, h1, h2, _⟩ := C101_coupled_members chk params sch s st hp hc hs hD h p hsw hco
  exact hbad t h1 h2

namespace ValEx

/-- A parameter file with two sweepable numbers and a sweepable text. -/
def params2 : Cfg := dict [("sweep_mode", yes), ("inputs", dict [("seed", swp), ("to", swp), ("count", swp)])]

def schema2 : Cfg := dict [("sweep_mode", entry false false [("dtype", txt "bool")]),
  ("inputs", dict [("seed", entry true false sweepEntry), ("to", entry true false sweepEntry), ("count", entry true false sweepEntry)])]

def coupledSweep (t : String) : Cfg := dict [("sweep", dict [("default", num 5), ("range", range3), ("coupled", yes), ("target_name", txt t)])]

/-- Two sweeps coupled to a third one. -/
def coupledSettings (t : String) : Cfg := dict [("sweep_mode", yes),
  ("inputs", dict [("seed", dict [("sweep", dict [("default", num 5), ("range", range3)])]), ("to", coupledSweep t), ("count", coupledSweep t)])]

theorem params2_file : ParamFile params2 := by
  refine ⟨paramTree_of_check _ (by decide +kernel) (by decide +kernel) (by decide +kernel), ⟨_, _, rfl⟩, ?_, rfl⟩
  exact mode_of_check _ (by decide +kernel)

theorem schema2_clean : Clean schema2 := clean_of_check _ (by decide +kernel) (by decide +kernel)

theorem coupledSettings_clean : Clean (coupledSettings "seed") ∧ Clean (coupledSettings "nothing") :=
  ⟨clean_of_check _ (by decide +kernel) (by decide +kernel), clean_of_check _ (by decide +kernel) (by decide +kernel)⟩

end ValEx

example : (validateConfig ValEx.check ValEx.params2 ValEx.schema2 (ValEx.coupledSettings "seed")).toOption.map (·.coupled) =
    some [(.str "seed", [(.str "seed", [.str "inputs", .str "seed"]), (.str "to", [.str "inputs", .str "to"]),
      (.str "count", [.str "inputs", .str "count"])])] := by decide +kernel

example : IsSwept ValEx.params2 [.str "inputs", .str "to"] ∧ CoupledTo (ValEx.coupledSettings "seed") [.str "inputs", .str "to"] "seed" :=
  ⟨rfl, ⟨ValEx.yes, rfl, rfl⟩, rfl⟩

example : validateConfig ValEx.check ValEx.params2 ValEx.schema2 (ValEx.coupledSettings "nothing") = .error .raised := rfl

/-- Which values switch a flag off: `None`, `False`, `0`, the empty text and the empty containers. -/
theorem C98_flags (c : Cfg) : c.truthy = false ↔
    c = .leaf .null ∨ c = .leaf (.bool false) ∨ c = .leaf (.num 0) ∨ c = .leaf (.str "") ∨ ∃ l, c = .node l [] := by
  cases c with
  | node l es => cases es <;> simp [Cfg.truthy]
  | leaf a => cases a <;> simp [Cfg.truthy]

end GeNSIT
