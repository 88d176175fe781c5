import Verif.Discover.Lemmas

/-! # The loop over the walk of the settings -/

namespace GeNSIT

open Spec

/-- A walked path that is filed, with its name and the settings of its sweep. -/
def Filed (c : Cfg) (e : List Key × Cfg) (q : List Key) (n : Key) (d : List (Key × Cfg)) : Prop :=
  isSweepPath e = true ∧ q = beforeSweep e.1 ∧ pathGet c (q ++ [.str "sweep"]) = some (.node false d) ∧
    sweptName q = some n

/-- The settings accumulated describe the walked paths `L`. -/
structure Describes (c : Cfg) (L : List (List Key × Cfg)) (st : SweepPaths) : Prop where
  isoSound : ∀ n q, st.isolated.lookup n = some q → ∃ e ∈ L, ∃ d, Filed c e q n d ∧ coupledTarget d = some none
  isoComplete : ∀ e ∈ L, ∀ q n d, Filed c e q n d → coupledTarget d = some none → (st.isolated.lookup n).isSome
  coupSound : ∀ t g n q, st.coupled.lookup t = some g → g.lookup n = some q →
    (∃ e ∈ L, ∃ d, Filed c e q n d ∧ coupledTarget d = some (some (some t))) ∨
      (n = t ∧ (pathFind t c [] []).2.head? = some q)
  coupComplete : ∀ e ∈ L, ∀ q n d t, Filed c e q n d → coupledTarget d = some (some (some t)) →
    (pathFind t c [] []).2 ≠ [] → ∃ g, st.coupled.lookup t = some g ∧ (g.lookup n).isSome
  coupUsed : ∀ t g, st.coupled.lookup t = some g → (pathFind t c [] []).2 ≠ [] ∧ (g.lookup t).isSome ∧
    ∃ e ∈ L, ∃ q n d, Filed c e q n d ∧ coupledTarget d = some (some (some t))
  isoNodup : (st.isolated.map Prod.fst).Nodup
  coupNodup : (st.coupled.map Prod.fst).Nodup
  groupNodup : ∀ t g, st.coupled.lookup t = some g → (g.map Prod.fst).Nodup

theorem describes_nil (c : Cfg) : Describes c [] ⟨[], []⟩ := by
  constructor <;> simp

theorem filed_unique {c : Cfg} {e : List Key × Cfg} {q q' : List Key} {n n' : Key} {d d' : List (Key × Cfg)}
    (h : Filed c e q n d) (h' : Filed c e q' n' d') : q' = q ∧ n' = n ∧ d' = d := by
  obtain ⟨_, rfl, h2, h3⟩ := h
  obtain ⟨_, rfl, h2', h3'⟩ := h'
  rw [h2] at h2'
  rw [h3] at h3'
  cases h2'; cases h3'
  exact ⟨rfl, rfl, rfl⟩

/-- What one step does. -/
theorem fileSweep_cases {c : Cfg} {st st' : SweepPaths} {e : List Key × Cfg} (h : fileSweep c st e = some st') :
    (isSweepPath e = false ∧ st' = st) ∨
    ∃ q n d, Filed c e q n d ∧
      ((coupledTarget d = some none ∧ st' = { st with isolated := putKey st.isolated n q }) ∨
       (coupledTarget d = some (some none) ∧ st' = st) ∨
       ∃ t, coupledTarget d = some (some (some t)) ∧ st' = addCoupled c st t n q) := by
  unfold fileSweep at h
  split at h
  · next hs =>
    right
    split at h
    · next d hd =>
      split at h
      · next n ht hn =>
        refine ⟨_, n, d, ⟨hs, rfl, hd, hn⟩, Or.inl ⟨ht, ?_⟩⟩
        simp only [Option.some.injEq] at h; exact h.symm
      · next n ht hn =>
        refine ⟨_, n, d, ⟨hs, rfl, hd, hn⟩, Or.inr (Or.inl ⟨ht, ?_⟩)⟩
        simp only [Option.some.injEq] at h; exact h.symm
      · next t n ht hn =>
        refine ⟨_, n, d, ⟨hs, rfl, hd, hn⟩, Or.inr (Or.inr ⟨t, ht, ?_⟩)⟩
        simp only [Option.some.injEq] at h; exact h.symm
      · simp at h
    · simp at h
  · next hs =>
    left
    simp only [Option.some.injEq] at h
    exact ⟨by simpa using hs, h.symm⟩

theorem describes_skip {c : Cfg} {L : List (List Key × Cfg)} {st : SweepPaths} (h : Describes c L st)
    (e : List Key × Cfg)
    (h0 : ∀ q n d, Filed c e q n d → coupledTarget d = some none → (st.isolated.lookup n).isSome)
    (h1 : ∀ q n d t, Filed c e q n d → coupledTarget d = some (some (some t)) → (pathFind t c [] []).2 ≠ [] →
      ∃ g, st.coupled.lookup t = some g ∧ (g.lookup n).isSome) : Describes c (L ++ [e]) st where
  isoSound n q hl := by
    obtain ⟨e', he, r⟩ := h.isoSound n q hl
    exact ⟨e', List.mem_append_left _ he, r⟩
  isoComplete e' he q n d hf ht := by
    rcases List.mem_append.mp he with he | he
    · exact h.isoComplete e' he q n d hf ht
    · rw [List.mem_singleton] at he; subst he; exact h0 q n d hf ht
  coupSound t g n q hg hl := by
    rcases h.coupSound t g n q hg hl with ⟨e', he, r⟩ | r
    · exact Or.inl ⟨e', List.mem_append_left _ he, r⟩
    · exact Or.inr r
  coupComplete e' he q n d t hf ht hp := by
    rcases List.mem_append.mp he with he | he
    · exact h.coupComplete e' he q n d t hf ht hp
    · rw [List.mem_singleton] at he; subst he; exact h1 q n d t hf ht hp
  coupUsed t g hg := by
    obtain ⟨h1, h2, e', he, r⟩ := h.coupUsed t g hg
    exact ⟨h1, h2, e', List.mem_append_left _ he, r⟩
  isoNodup := h.isoNodup
  coupNodup := h.coupNodup
  groupNodup := h.groupNodup

theorem describes_isolated {c : Cfg} {L : List (List Key × Cfg)} {st : SweepPaths} (h : Describes c L st)
    {e : List Key × Cfg} {q : List Key} {n : Key} {d : List (Key × Cfg)} (hf : Filed c e q n d)
    (ht : coupledTarget d = some none) :
    Describes c (L ++ [e]) { st with isolated := putKey st.isolated n q } where
  isoSound m p hl := by
    simp only [lookup_putKey] at hl
    split at hl
    · next hm =>
      subst hm
      simp only [Option.some.injEq] at hl; subst hl
      exact ⟨e, by simp, d, hf, ht⟩
    · obtain ⟨e', he, r⟩ := h.isoSound m p hl
      exact ⟨e', List.mem_append_left _ he, r⟩
  isoComplete e' he p m d' hf' ht' := by
    simp only [lookup_putKey]
    split
    · rfl
    · next hm =>
      rcases List.mem_append.mp he with he | he
      · exact h.isoComplete e' he p m d' hf' ht'
      · rw [List.mem_singleton] at he; subst he
        exact absurd (filed_unique hf hf').2.1 hm
  coupSound t g m p hg hl := by
    rcases h.coupSound t g m p hg hl with ⟨e', he, r⟩ | r
    · exact Or.inl ⟨e', List.mem_append_left _ he, r⟩
    · exact Or.inr r
  coupComplete e' he p m d' t hf' ht' hp := by
    rcases List.mem_append.mp he with he | he
    · exact h.coupComplete e' he p m d' t hf' ht' hp
    · rw [List.mem_singleton] at he; subst he
      obtain ⟨_, _, rfl⟩ := filed_unique hf hf'
      rw [ht] at ht'; cases ht'
  coupUsed t g hg := by
    obtain ⟨h1, h2, e', he, r⟩ := h.coupUsed t g hg
    exact ⟨h1, h2, e', List.mem_append_left _ he, r⟩
  isoNodup := putKey_nodup h.isoNodup n q
  coupNodup := h.coupNodup
  groupNodup := h.groupNodup

/-- Adding `n ↦ q` to a group `g0` of the target `t`. -/
theorem describes_group {c : Cfg} {L : List (List Key × Cfg)} {st : SweepPaths} (h : Describes c L st)
    {e : List Key × Cfg} {q : List Key} {n t : Key} {d : List (Key × Cfg)} (hf : Filed c e q n d)
    (ht : coupledTarget d = some (some (some t))) (g0 : List (Key × List Key)) (hp : (pathFind t c [] []).2 ≠ [])
    (hg0 : ∀ m p, g0.lookup m = some p →
      (∃ e' ∈ L, ∃ d', Filed c e' p m d' ∧ coupledTarget d' = some (some (some t))) ∨
        (m = t ∧ (pathFind t c [] []).2.head? = some p))
    (hgt : (g0.lookup t).isSome) (hold : ∀ g, st.coupled.lookup t = some g → g = g0) (hn : (g0.map Prod.fst).Nodup) :
    Describes c (L ++ [e]) { st with coupled := putKey st.coupled t (putKey g0 n q) } where
  isoSound m p hl := by
    obtain ⟨e', he, r⟩ := h.isoSound m p hl
    exact ⟨e', List.mem_append_left _ he, r⟩
  isoComplete e' he p m d' hf' ht' := by
    rcases List.mem_append.mp he with he | he
    · exact h.isoComplete e' he p m d' hf' ht'
    · rw [List.mem_singleton] at he; subst he
      obtain ⟨_, _, rfl⟩ := filed_unique hf hf'
      rw [ht] at ht'; cases ht'
  coupSound s g m p hg hl := by
    simp only [lookup_putKey] at hg
    split at hg
    · next hs =>
      subst hs
      simp only [Option.some.injEq] at hg; subst hg
      rw [lookup_putKey] at hl
      split at hl
      · next hm =>
        subst hm
        simp only [Option.some.injEq] at hl; subst hl
        exact Or.inl ⟨e, by simp, d, hf, ht⟩
      · rcases hg0 m p hl with ⟨e', he, r⟩ | r
        · exact Or.inl ⟨e', List.mem_append_left _ he, r⟩
        · exact Or.inr r
    · rcases h.coupSound s g m p hg hl with ⟨e', he, r⟩ | r
      · exact Or.inl ⟨e', List.mem_append_left _ he, r⟩
      · exact Or.inr r
  coupComplete e' he p m d' s hf' ht' hp' := by
    simp only [lookup_putKey]
    rcases List.mem_append.mp he with he | he
    · obtain ⟨g, hg, hm⟩ := h.coupComplete e' he p m d' s hf' ht' hp'
      by_cases hs : s = t
      · subst hs
        rw [if_pos rfl]
        refine ⟨_, rfl, ?_⟩
        rw [lookup_putKey]
        split
        · rfl
        · rw [hold g hg] at hm; exact hm
      · rw [if_neg hs]; exact ⟨g, hg, hm⟩
    · rw [List.mem_singleton] at he; subst he
      obtain ⟨_, rfl, rfl⟩ := filed_unique hf hf'
      rw [ht] at ht'; cases ht'
      rw [if_pos rfl]
      exact ⟨_, rfl, by rw [lookup_putKey_self]; rfl⟩
  coupUsed s g hg := by
    simp only [lookup_putKey] at hg
    split at hg
    · next hs =>
      subst hs
      simp only [Option.some.injEq] at hg; subst hg
      refine ⟨hp, ?_, e, by simp, q, n, d, hf, ht⟩
      rw [lookup_putKey]
      split
      · rfl
      · exact hgt
    · obtain ⟨h1, h2, e', he, r⟩ := h.coupUsed s g hg
      exact ⟨h1, h2, e', List.mem_append_left _ he, r⟩
  isoNodup := h.isoNodup
  coupNodup := putKey_nodup h.coupNodup t _
  groupNodup s g hg := by
    simp only [lookup_putKey] at hg
    split at hg
    · simp only [Option.some.injEq] at hg; subst hg
      exact putKey_nodup hn n q
    · exact h.groupNodup s g hg

theorem describes_step {c : Cfg} {L : List (List Key × Cfg)} {st st' : SweepPaths} (h : Describes c L st)
    {e : List Key × Cfg} (hs : fileSweep c st e = some st') : Describes c (L ++ [e]) st' := by
  rcases fileSweep_cases hs with ⟨h1, rfl⟩ | ⟨q, n, d, hf, ⟨ht, rfl⟩ | ⟨ht, rfl⟩ | ⟨t, ht, rfl⟩⟩
  · refine describes_skip h e ?_ ?_
    · rintro q n d ⟨h2, _⟩; rw [h1] at h2; cases h2
    · rintro q n d t ⟨h2, _⟩; rw [h1] at h2; cases h2
  · exact describes_isolated h hf ht
  · refine describes_skip h e ?_ ?_
    · intro q' n' d' hf' ht'
      obtain ⟨_, _, rfl⟩ := filed_unique hf hf'
      rw [ht] at ht'; cases ht'
    · intro q' n' d' t hf' ht'
      obtain ⟨_, _, rfl⟩ := filed_unique hf hf'
      rw [ht] at ht'; cases ht'
  · unfold addCoupled
    cases hg : st.coupled.lookup t with
    | some g =>
      obtain ⟨h1, h2, _⟩ := h.coupUsed t g hg
      exact describes_group h hf ht g h1 (fun m p hm => h.coupSound t g m p hg hm) h2
        (fun g' hg' => by rw [hg] at hg'; cases hg'; rfl) (h.groupNodup t g hg)
    | none =>
      simp only
      split
      · next hp =>
        refine describes_skip h e ?_ ?_
        · intro q' n' d' hf' ht'
          obtain ⟨_, _, rfl⟩ := filed_unique hf hf'
          rw [ht] at ht'; cases ht'
        · intro q' n' d' t' hf' ht' hne
          obtain ⟨_, _, rfl⟩ := filed_unique hf hf'
          rw [ht] at ht'; cases ht'
          exact absurd hp hne
      · next p0 rest hp =>
        refine describes_group h hf ht [(t, p0)] (by rw [hp]; simp) ?_ (by simp [List.lookup]) ?_ (by simp)
        · intro m p hm
          right
          by_cases hmt : m = t
          · subst hmt
            simp only [List.lookup, beq_self_eq_true, Option.some.injEq] at hm
            subst hm
            exact ⟨rfl, by rw [hp]; rfl⟩
          · have hb : (m == t) = false := by simpa using hmt
            simp [List.lookup, hb] at hm
        · intro g hg'; rw [hg] at hg'; cases hg'

theorem describes_loop {c : Cfg} (M : List (List Key × Cfg)) : ∀ (L : List (List Key × Cfg)) (st st' : SweepPaths),
    Describes c L st → fileSweeps c st M = some st' → Describes c (L ++ M) st' := by
  induction M with
  | nil =>
    intro L st st' h hs
    simp only [fileSweeps, Option.some.injEq] at hs
    subst hs; simpa using h
  | cons e rest ih =>
    intro L st st' h hs
    simp only [fileSweeps] at hs
    cases h1 : fileSweep c st e with
    | none => rw [h1] at hs; simp at hs
    | some st1 =>
      rw [h1] at hs
      have := ih (L ++ [e]) st1 st' (describes_step h h1) hs
      simpa using this

/-- The loop raises exactly at the walked paths that cannot be filed. -/
theorem fileSweeps_total {c : Cfg} (M : List (List Key × Cfg)) : ∀ (st : SweepPaths),
    (fileSweeps c st M).isSome ↔ ∀ e ∈ M, isSweepPath e = true → ∃ q n d, Filed c e q n d ∧ coupledTarget d ≠ none := by
  induction M with
  | nil => intro st; simp [fileSweeps]
  | cons e rest ih =>
    intro st
    simp only [fileSweeps, List.mem_cons, forall_eq_or_imp]
    have hstep : (fileSweep c st e).isSome ↔
        (isSweepPath e = true → ∃ q n d, Filed c e q n d ∧ coupledTarget d ≠ none) := by
      constructor
      · intro h hs
        obtain ⟨st', hst⟩ := Option.isSome_iff_exists.mp h
        rcases fileSweep_cases hst with ⟨h1, _⟩ | ⟨q, n, d, hf, h1⟩
        · rw [h1] at hs; cases hs
        · refine ⟨q, n, d, hf, ?_⟩
          rcases h1 with ⟨h1, _⟩ | ⟨h1, _⟩ | ⟨t, h1, _⟩ <;> simp [h1]
      · intro h
        unfold fileSweep
        split
        · next hs =>
          obtain ⟨q, n, d, ⟨_, rfl, h2, h3⟩, h4⟩ := h hs
          rw [h2]
          simp only [h3]
          cases hct : coupledTarget d with
          | none => exact absurd hct h4
          | some x =>
            cases x with
            | none => rfl
            | some y => cases y <;> rfl
        · rfl
    cases hf : fileSweep c st e with
    | none =>
      rw [hf] at hstep
      simp only [Option.isSome_none, Bool.false_eq_true, false_iff, not_and]
      intro h
      exact absurd (hstep.mpr h) (by simp)
    | some st' =>
      rw [hf] at hstep
      simp only
      rw [ih st']
      constructor
      · intro h; exact ⟨hstep.mp rfl, h⟩
      · exact fun h => h.2

end GeNSIT
