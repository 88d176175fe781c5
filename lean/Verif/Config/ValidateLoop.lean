import Verif.Config.ValidateVisit

/-!
# The loop over the parameters
-/

namespace GeNSIT.Spec

open GeNSIT

/-- A parameter file: the shape of `ParamTree`, with `sweep_mode` first and only at the top. -/
structure ParamFile (c : Cfg) : Prop extends ParamTree c where
  top : ∃ a es, c = .node false ((.str "sweep_mode", .leaf a) :: es)
  mode : ∀ p, p ≠ [] → readAt c (p ++ [.str "sweep_mode"]) = none
  file : readAt c [.str "file", .str "sweep"] = none

/-- Sweeps are switched on in the settings. -/
def sweepsOn (s : Cfg) : Bool := ((readAt s [.str "sweep_mode"]).getD (.leaf .null)).truthy

/-- No default of a sweep is itself a dictionary with a key `sweep`. -/
def PlainDefaults (params s : Cfg) : Prop :=
  ∀ p, IsSwept params p → readAt s (p ++ [.str "sweep", .str "default", .str "sweep"]) = none

/-- The settings are right about every parameter of the file. -/
def AllRight (chk : ValueCheck) (params sch s : Cfg) : Prop :=
  (∀ p, IsPlain params p → PlainOk chk sch s p) ∧ ∀ p, IsSwept params p → SweptOk chk sch s (sweepsOn s) p

/-- Two settings agree on every parameter of the file. -/
def AgreeOn (params s s' : Cfg) : Prop := ∀ p, IsPlain params p ∨ IsSwept params p → ∀ r, readAt s' (p ++ r) = readAt s (p ++ r)

end GeNSIT.Spec

namespace GeNSIT

open Spec

theorem keySet_self {α : Type} (l : List (Key × α)) (k : Key) (v : α) : (keySet l k v).lookup k = some v := by
  induction l with
  | nil => simp [keySet]
  | cons e r ih =>
    obtain ⟨k', v'⟩ := e
    simp only [keySet]
    split
    · rename_i h; subst h; simp
    · rename_i h
      rw [List.lookup_cons]
      have : (k == k') = false := by simpa using h
      rw [this]; exact ih

theorem keySet_ne {α : Type} (l : List (Key × α)) {k k2 : Key} (v : α) (h : k2 ≠ k) : (keySet l k v).lookup k2 = l.lookup k2 := by
  induction l with
  | nil =>
    have : (k2 == k) = false := by simpa using h
    simp [keySet, List.lookup_cons, this]
  | cons e r ih =>
    obtain ⟨k', v'⟩ := e
    simp only [keySet]
    split
    · rename_i hk; subst hk
      have : (k2 == k) = false := by simpa using h
      simp [List.lookup_cons, this]
    · rw [List.lookup_cons, List.lookup_cons, ih]

/-- What the loop needs to know about a parameter. -/
structure GoodParam (x : List Key × Bool) : Prop where
  ends : EndsInName x.1
  noSweep : .str "sweep" ∉ x.1
  noMode : x.1.getLast? ≠ some (.str "sweep_mode")
  noFile : x.1 ≠ [.str "file"] ∨ x.2 = false

theorem GoodParam.last {x : List Key × Bool} (h : GoodParam x) : x.1.getLast? ≠ some (.str "sweep") :=
  fun h' => h.noSweep (List.mem_of_getLast? h')

/-- The settings are right about one parameter. -/
def RightAt (chk : ValueCheck) (sch s : Cfg) (on : Bool) (x : List Key × Bool) : Prop :=
  if x.2 then SweptOk chk sch s on x.1 else PlainOk chk sch s x.1

/-- A sweep that gets registered. -/
def Registers (s : Cfg) (x : List Key × Bool) : Prop :=
  x.2 = true ∧ NotCoupled s x.1 ∧ (readAt s (x.1 ++ [.str "sweep", .str "range"])).isSome

theorem plainOk_congr {chk : ValueCheck} {sch s s' : Cfg} {p : List Key} (h : ∀ r, readAt s' (p ++ r) = readAt s (p ++ r)) :
    PlainOk chk sch s' p ↔ PlainOk chk sch s p := by
  have h0 := h []
  rw [List.append_nil] at h0
  unfold PlainOk
  rw [h0]

theorem sweptOk_congr {chk : ValueCheck} {sch s s' : Cfg} {on : Bool} {p : List Key}
    (h : ∀ r, readAt s' (p ++ r) = readAt s (p ++ r)) : SweptOk chk sch s' on p ↔ SweptOk chk sch s on p := by
  have h0 := h []
  rw [List.append_nil] at h0
  constructor
  · rintro ⟨a, b, c, d⟩
    rw [h0] at b c
    rw [h] at c d
    rw [h, h] at d
    exact ⟨a, b, c, d⟩
  · rintro ⟨a, b, c, d⟩
    refine ⟨a, ?_, ?_, ?_⟩
    · rw [h0]; exact b
    · rw [h0, h]; exact c
    · rw [h, h, h]; exact d

theorem rightAt_congr {chk : ValueCheck} {sch s s' : Cfg} {on : Bool} {x : List Key × Bool}
    (h : ∀ r, readAt s' (x.1 ++ r) = readAt s (x.1 ++ r)) : RightAt chk sch s' on x ↔ RightAt chk sch s on x := by
  unfold RightAt
  split
  · exact sweptOk_congr h
  · exact plainOk_congr h

theorem replaced_congr {s s' : Cfg} {on : Bool} {p : List Key} {dv : Cfg} (h : ∀ r, readAt s' (p ++ r) = readAt s (p ++ r)) :
    Replaced s' on p dv ↔ Replaced s on p dv := by unfold Replaced; rw [h, h]

theorem notCoupled_congr {s s' : Cfg} {p : List Key} (h : ∀ r, readAt s' (p ++ r) = readAt s (p ++ r)) :
    NotCoupled s' p ↔ NotCoupled s p := by unfold NotCoupled; rw [h]

theorem registers_congr {s s' : Cfg} {x : List Key × Bool} (h : ∀ r, readAt s' (x.1 ++ r) = readAt s (x.1 ++ r)) :
    Registers s' x ↔ Registers s x := by unfold Registers; rw [h, notCoupled_congr h]

/-- One parameter. -/
structure StepEffect (st st' : VState) (x : List Key × Bool) : Prop where
  active : st'.active = st.active
  clean : Clean st'.settings
  frame : ∀ q, (∀ dv, x.2 = true → Replaced st.settings st.active x.1 dv → Unrelated x.1 q) →
    readAt st'.settings q = readAt st.settings q
  replaced : x.2 = true → ∀ dv, Replaced st.settings st.active x.1 dv → ∀ r, readAt st'.settings (x.1 ++ r) = readAt dv r
  registered : Registers st.settings x → st'.isolated = keySet st.isolated (sweepName x.1) x.1
  unregistered : ¬ Registers st.settings x → st'.isolated = st.isolated

theorem visit_ok (chk : ValueCheck) {sch : Cfg} {x : List Key × Bool} {st st' : VState} (hc : Clean sch) (hs : Clean st.settings)
    (hx : GoodParam x) (hD : x.2 = true → readAt st.settings (x.1 ++ [.str "sweep", .str "default", .str "sweep"]) = none)
    (h : visit chk sch x st = .ok st') : RightAt chk sch st.settings st.active x ∧ StepEffect st st' x := by
  obtain ⟨p, b⟩ := x
  unfold visit at h
  cases b with
  | false =>
    simp only [Bool.false_eq_true, if_false] at h
    obtain ⟨⟨e, h1, h2, h3⟩, rfl⟩ := (visitPlain_iff chk hc hs hx.ends hx.last).1 h
    have hres : plainResult p st = st := by unfold plainResult; rw [if_neg hx.noMode]
    rw [hres]
    refine ⟨⟨e, h1, h2, h3 hx.noSweep⟩, ⟨rfl, hs, fun _ _ => rfl, fun hb => (by cases hb), fun hr => (by cases hr.1), fun _ => rfl⟩⟩
  | true =>
    simp only [if_true] at h
    obtain ⟨h1, h2⟩ := visitSwept_ok chk hc hs hx.ends (hD rfl) h
    refine ⟨h1, ⟨h2.active, h2.clean, fun q hq => ?_, fun _ => h2.replaced, fun hr => h2.registered.1 ⟨hr.2.1, ?_, hr.2.2⟩,
      fun hr => ?_⟩⟩
    · by_cases hd : ∃ dv, Replaced st.settings st.active p dv
      · obtain ⟨dv, hd⟩ := hd
        exact h2.frame q (hq dv rfl hd)
      · rw [h2.kept hd]
    · rcases hx.noFile with h | h
      · exact h
      · cases h
    · by_cases hn : NotCoupled st.settings p
      · apply h2.registered.2.1
        cases hr' : readAt st.settings (p ++ [.str "sweep", .str "range"]) with
        | none => rfl
        | some v => exact absurd ⟨rfl, hn, by rw [hr']; rfl⟩ hr
      · exact h2.registered.2.2 hn

theorem visit_succeeds (chk : ValueCheck) {sch : Cfg} {x : List Key × Bool} {st : VState} (hc : Clean sch) (hs : Clean st.settings)
    (hx : GoodParam x) (hD : x.2 = true → readAt st.settings (x.1 ++ [.str "sweep", .str "default", .str "sweep"]) = none)
    (hn : x.2 = true → NotCoupled st.settings x.1) (h : RightAt chk sch st.settings st.active x) :
    ∃ st', visit chk sch x st = .ok st' := by
  obtain ⟨p, b⟩ := x
  unfold visit
  cases b with
  | false =>
    simp only [Bool.false_eq_true, if_false]
    obtain ⟨e, h1, h2, h3⟩ := h
    exact ⟨_, (visitPlain_iff chk hc hs hx.ends hx.last).2 ⟨⟨e, h1, h2, fun _ => h3⟩, rfl⟩⟩
  | true =>
    simp only [if_true]
    refine visitSwept_succeeds chk hc hs hx.ends ?_ (hD rfl) (hn rfl) h
    rcases hx.noFile with h | h
    · exact h
    · cases h

/-- The whole loop. -/
structure LoopEffect (st st' : VState) (xs : List (List Key × Bool)) : Prop where
  active : st'.active = st.active
  clean : Clean st'.settings
  frame : ∀ q, (∀ x ∈ xs, ∀ dv, x.2 = true → Replaced st.settings st.active x.1 dv → Unrelated x.1 q) →
    readAt st'.settings q = readAt st.settings q
  replaced : ∀ x ∈ xs, x.2 = true → ∀ dv, Replaced st.settings st.active x.1 dv → ∀ r, readAt st'.settings (x.1 ++ r) = readAt dv r
  untouched : ∀ n, (∀ x ∈ xs, Registers st.settings x → sweepName x.1 ≠ n) → st'.isolated.lookup n = st.isolated.lookup n
  listed : ∀ n q, st'.isolated.lookup n = some q →
    st.isolated.lookup n = some q ∨ ((q, true) ∈ xs ∧ Registers st.settings (q, true) ∧ n = sweepName q)

theorem visits_ok (chk : ValueCheck) {sch : Cfg} (hc : Clean sch) : ∀ (xs : List (List Key × Bool)) (st st' : VState),
    Clean st.settings → (∀ x ∈ xs, GoodParam x) → xs.Pairwise (fun x y => Unrelated x.1 y.1) →
    (∀ x ∈ xs, x.2 = true → readAt st.settings (x.1 ++ [.str "sweep", .str "default", .str "sweep"]) = none) →
    visits chk sch xs st = .ok st' →
    (∀ x ∈ xs, RightAt chk sch st.settings st.active x) ∧ LoopEffect st st' xs := by
  intro xs
  induction xs with
  | nil =>
    intro st st' hs _ _ _ h
    simp only [visits, Except.ok.injEq] at h
    subst h
    exact ⟨by simp, ⟨rfl, hs, fun _ _ => rfl, by simp, fun _ _ => rfl, fun _ _ h => Or.inl h⟩⟩
  | cons x xs ih =>
    intro st st' hs hg hp hD h
    rw [visits] at h
    cases hv : visit chk sch x st with
    | error e => rw [hv] at h; cases h
    | ok st1 =>
      rw [hv] at h
      simp only at h
      rw [List.pairwise_cons] at hp
      obtain ⟨hr, he⟩ := visit_ok chk hc hs (hg x (by simp)) (hD x (by simp)) hv
      have hsame : ∀ y ∈ xs, ∀ r, readAt st1.settings (y.1 ++ r) = readAt st.settings (y.1 ++ r) :=
        fun y hy r => he.frame _ fun dv _ _ => (hp.1 y hy).append r
      obtain ⟨hr', he'⟩ := ih st1 st' he.clean (fun y hy => hg y (by simp [hy])) hp.2
        (fun y hy hb => by rw [hsame y hy]; exact hD y (by simp [hy]) hb) h
      refine ⟨?_, ⟨he'.active.trans he.active, he'.clean, ?_, ?_, ?_, ?_⟩⟩
      · intro y hy
        rcases List.mem_cons.1 hy with rfl | hy
        · exact hr
        · have := hr' y hy
          rw [he.active] at this
          exact (rightAt_congr (hsame y hy)).1 this
      · intro q hq
        rw [he'.frame q, he.frame q]
        · intro dv hb hd; exact hq x (by simp) dv hb hd
        · intro y hy dv hb hd
          rw [he.active] at hd
          exact hq y (by simp [hy]) dv hb ((replaced_congr (hsame y hy)).1 hd)
      · intro y hy hb dv hd r
        rcases List.mem_cons.1 hy with rfl | hy
        · rw [he'.frame, he.replaced hb dv hd]
          intro z hz dv' _ _
          exact (hp.1 z hz).symm.append r
        · exact he'.replaced y hy hb dv (by rw [he.active]; exact (replaced_congr (hsame y hy)).2 hd) r
      · intro n hn
        rw [he'.untouched n (fun y hy hreg => hn y (by simp [hy]) ((registers_congr (hsame y hy)).1 hreg))]
        by_cases hreg : Registers st.settings x
        · rw [he.registered hreg, keySet_ne _ _ (fun h => hn x (by simp) hreg h.symm)]
        · rw [he.unregistered hreg]
      · intro n q hq
        rcases he'.listed n q hq with h1 | ⟨h1, h2, h3⟩
        · by_cases hreg : Registers st.settings x
          · rw [he.registered hreg] at h1
            by_cases hn : n = sweepName x.1
            · subst hn
              rw [keySet_self, Option.some.injEq] at h1
              subst h1
              have hx2 : x = (x.1, true) := by rw [← hreg.1]
              exact Or.inr ⟨by rw [← hx2]; simp, by rw [← hx2]; exact hreg, rfl⟩
            · rw [keySet_ne _ _ hn] at h1; exact Or.inl h1
          · rw [he.unregistered hreg] at h1; exact Or.inl h1
        · exact Or.inr ⟨by simp [h1], (registers_congr (hsame _ h1)).1 h2, h3⟩

theorem visits_registered (chk : ValueCheck) {sch : Cfg} (hc : Clean sch) : ∀ (xs : List (List Key × Bool)) (st st' : VState),
    Clean st.settings → (∀ x ∈ xs, GoodParam x) → xs.Pairwise (fun x y => Unrelated x.1 y.1) →
    (∀ x ∈ xs, x.2 = true → readAt st.settings (x.1 ++ [.str "sweep", .str "default", .str "sweep"]) = none) →
    visits chk sch xs st = .ok st' → ∀ x ∈ xs, Registers st.settings x →
    (∀ y ∈ xs, Registers st.settings y → sweepName y.1 = sweepName x.1 → y = x) →
    st'.isolated.lookup (sweepName x.1) = some x.1 := by
  intro xs
  induction xs with
  | nil => intro st st' _ _ _ _ _ x hx; cases hx
  | cons y xs ih =>
    intro st st' hs hg hp hD h x hx hreg huniq
    rw [visits] at h
    cases hv : visit chk sch y st with
    | error e => rw [hv] at h; cases h
    | ok st1 =>
      rw [hv] at h
      simp only at h
      rw [List.pairwise_cons] at hp
      obtain ⟨hr, he⟩ := visit_ok chk hc hs (hg y (by simp)) (hD y (by simp)) hv
      have hsame : ∀ z ∈ xs, ∀ r, readAt st1.settings (z.1 ++ r) = readAt st.settings (z.1 ++ r) :=
        fun z hz r => he.frame _ fun dv _ _ => (hp.1 z hz).append r
      have hD' : ∀ z ∈ xs, z.2 = true → readAt st1.settings (z.1 ++ [.str "sweep", .str "default", .str "sweep"]) = none :=
        fun z hz hb => by rw [hsame z hz]; exact hD z (by simp [hz]) hb
      rcases List.mem_cons.1 hx with rfl | hx
      · have := (visits_ok chk hc xs st1 st' he.clean (fun z hz => hg z (by simp [hz])) hp.2 hD' h).2
        rw [this.untouched, he.registered hreg, keySet_self]
        intro z hz hzr hzn
        have hzx := huniq z (by simp [hz]) ((registers_congr (hsame z hz)).1 hzr) hzn
        subst hzx
        exact (hp.1 z hz).1 (List.prefix_refl _)
      · exact ih st1 st' he.clean (fun z hz => hg z (by simp [hz])) hp.2 hD' h x hx ((registers_congr (hsame x hx)).2 hreg)
          (fun z hz hzr hzn => huniq z (by simp [hz]) ((registers_congr (hsame z hz)).1 hzr) hzn)

theorem visits_succeeds (chk : ValueCheck) {sch : Cfg} (hc : Clean sch) : ∀ (xs : List (List Key × Bool)) (st : VState),
    Clean st.settings → (∀ x ∈ xs, GoodParam x) → xs.Pairwise (fun x y => Unrelated x.1 y.1) →
    (∀ x ∈ xs, x.2 = true → readAt st.settings (x.1 ++ [.str "sweep", .str "default", .str "sweep"]) = none) →
    (∀ x ∈ xs, x.2 = true → NotCoupled st.settings x.1) →
    (∀ x ∈ xs, RightAt chk sch st.settings st.active x) → ∃ st', visits chk sch xs st = .ok st' := by
  intro xs
  induction xs with
  | nil => intro st _ _ _ _ _ _; exact ⟨st, rfl⟩
  | cons x xs ih =>
    intro st hs hg hp hD hn hr
    rw [List.pairwise_cons] at hp
    obtain ⟨st1, hv⟩ := visit_succeeds chk hc hs (hg x (by simp)) (hD x (by simp)) (hn x (by simp)) (hr x (by simp))
    obtain ⟨_, he⟩ := visit_ok chk hc hs (hg x (by simp)) (hD x (by simp)) hv
    have hsame : ∀ y ∈ xs, ∀ r, readAt st1.settings (y.1 ++ r) = readAt st.settings (y.1 ++ r) :=
      fun y hy r => he.frame _ fun dv _ _ => (hp.1 y hy).append r
    obtain ⟨st', h⟩ := ih st1 he.clean (fun y hy => hg y (by simp [hy])) hp.2
      (fun y hy hb => by rw [hsame y hy]; exact hD y (by simp [hy]) hb)
      (fun y hy hb => (notCoupled_congr (hsame y hy)).2 (hn y (by simp [hy]) hb))
      (fun y hy => by rw [he.active]; exact (rightAt_congr (hsame y hy)).2 (hr y (by simp [hy])))
    exact ⟨st', by rw [visits, hv]; exact h⟩

/-! ### From the file to the loop -/

theorem Spec.ParamFile.noRootSweep {c : Cfg} (h : ParamFile c) : readAt c [.str "sweep"] = none := by
  cases hv : readAt c [.str "sweep"] with
  | none => rfl
  | some v =>
    exfalso
    obtain ⟨h1, _⟩ := h.sweeps [] v hv
    obtain ⟨a, es, rfl⟩ := h.top
    simp only [readAt, Option.some.injEq, Cfg.node.injEq, true_and] at h1
    have := (List.cons.inj h1).1
    exact absurd (Prod.mk.inj this).1 (by decide +kernel)

/-- The parameters after `sweep_mode`. -/
theorem Spec.ParamFile.rest {c : Cfg} (h : ParamFile c) : ∃ xs, paramsOf c = ([.str "sweep_mode"], false) :: xs ∧
    (∀ x ∈ xs, GoodParam x) ∧ xs.Pairwise (fun x y => Unrelated x.1 y.1) ∧
    (∀ x ∈ xs, Unrelated [.str "sweep_mode"] x.1) ∧
    (∀ p b, (p, b) ∈ xs ↔ p ≠ [.str "sweep_mode"] ∧ ((b = false ∧ IsPlain c p) ∨ (b = true ∧ IsSwept c p))) := by
  obtain ⟨a, es, hce⟩ := h.top
  have hroot := h.noRootSweep
  have hpw := paramsOf_pairwise c h.toParamTree
  have hmem := mem_paramsOf c h.toParamTree
  have hpo : paramsOf c = ([.str "sweep_mode"], false) :: paramsOfEntries es := by
    subst hce
    have hno : ((Key.str "sweep_mode", Cfg.leaf a) :: es).lookup (.str "sweep") = none := by
      simp only [readAt] at hroot
      cases hx : ((Key.str "sweep_mode", Cfg.leaf a) :: es).lookup (.str "sweep") with
      | none => rfl
      | some v => rw [hx] at hroot; simp at hroot
    rw [paramsOf, hno]
    simp [paramsOfEntries, paramsOfEntry, paramsOf]
  rw [hpo] at hpw hmem
  rw [List.pairwise_cons] at hpw
  have hmode : ∀ p b, (p, b) ∈ paramsOfEntries es → p ≠ [.str "sweep_mode"] := by
    rintro p b hm rfl
    exact (hpw.1 _ hm).1 (List.prefix_refl _)
  have hiff : ∀ p b, (p, b) ∈ paramsOfEntries es ↔
      p ≠ [.str "sweep_mode"] ∧ ((b = false ∧ IsPlain c p) ∨ (b = true ∧ IsSwept c p)) := by
    intro p b
    constructor
    · intro hm
      exact ⟨hmode p b hm, (hmem p b).1 (by simp [hm])⟩
    · rintro ⟨h1, h2⟩
      have := (hmem p b).2 h2
      simp only [List.mem_cons, Prod.mk.injEq] at this
      rcases this with ⟨h3, _⟩ | h3
      · exact absurd h3 h1
      · exact h3
  have hdict : c.isDict = true := by rw [hce]; rfl
  refine ⟨paramsOfEntries es, hpo, ?_, hpw.2, fun x hx => hpw.1 x hx, hiff⟩
  rintro ⟨p, b⟩ hx
  obtain ⟨hne, hk⟩ := (hiff p b).1 hx
  have hends : EndsInName p := by
    rcases hk with ⟨_, hk⟩ | ⟨_, hk⟩
    · exact plain_endsInName p c h.toParamTree hdict hk
    · exact swept_endsInName p c h.toParamTree hroot hk
  refine ⟨hends, ?_, ?_, ?_⟩
  · rcases hk with ⟨_, hk⟩ | ⟨_, hk⟩
    · exact hk.1
    · have := h.distinct (p ++ [Key.str "sweep"]) hk
      rw [List.nodup_append] at this
      intro hs
      exact this.2.2 _ hs _ (by simp) rfl
  · intro hl
    obtain ⟨q, n, rfl⟩ := hends
    simp only [List.getLast?_concat, Option.some.injEq] at hl
    rw [hl] at hne hk
    have hq : q ≠ [] := by rintro rfl; exact hne rfl
    have hnone := h.mode q hq
    rcases hk with ⟨_, _, a', hk⟩ | ⟨_, hk⟩
    · rw [hnone] at hk; cases hk
    · unfold IsSwept at hk
      rw [readAt_prefix_none hnone] at hk; cases hk
  · cases b with
    | false => exact Or.inr rfl
    | true =>
      left
      rintro hpf
      rcases hk with ⟨hb, _⟩ | ⟨_, hk⟩
      · cases hb
      · unfold IsSwept at hk
        rw [show p = [.str "file"] from hpf] at hk
        have hfile := h.file
        simp only [List.cons_append, List.nil_append] at hk
        rw [hfile] at hk; cases hk

theorem mode_good : EndsInName [Key.str "sweep_mode"] ∧ [Key.str "sweep_mode"].getLast? ≠ some (.str "sweep") ∧
    Key.str "sweep" ∉ [Key.str "sweep_mode"] := ⟨⟨[], "sweep_mode", rfl⟩, by decide +kernel, by decide +kernel⟩

/-- The state after `sweep_mode`. -/
def afterMode (s : Cfg) : VState := { VState.start s with active := sweepsOn s }

theorem validate_split (chk : ValueCheck) {params sch s : Cfg} (hp : ParamFile params) (hc : Clean sch) (hs : Clean s)
    {xs : List (List Key × Bool)} (hxs : paramsOf params = ([.str "sweep_mode"], false) :: xs) (st : VState) :
    validateConfig chk params sch s = .ok st ↔
      PlainOk chk sch s [.str "sweep_mode"] ∧ visits chk sch xs (afterMode s) = .ok st := by
  have hdict : params.isDict = true := by obtain ⟨a, es, h⟩ := hp.top; rw [h]; rfl
  rw [validateConfig_eq chk params sch s hp.toParamTree hdict hp.noRootSweep, hxs, visits]
  simp only [visit, Bool.false_eq_true, if_false]
  have hiff := fun st' => visitPlain_iff chk (st := VState.start s) (st' := st') hc hs mode_good.1 mode_good.2.1
  have hres : plainResult [.str "sweep_mode"] (VState.start s) = afterMode s := by
    unfold plainResult
    rw [if_pos (show [Key.str "sweep_mode"].getLast? = some (.str "sweep_mode") from rfl)]; rfl
  rw [hres] at hiff
  cases hv : visitPlain chk sch [.str "sweep_mode"] (VState.start s) with
  | error e =>
    simp only [reduceCtorEq, false_iff, not_and]
    rintro ⟨e', h1, h2, h3⟩ _
    have := (hiff (afterMode s)).2 ⟨⟨e', h1, h2, fun _ => h3⟩, rfl⟩
    rw [hv] at this; cases this
  | ok st' =>
    obtain ⟨⟨e', h1, h2, h3⟩, h4⟩ := (hiff st').1 hv
    subst h4
    simp only [show PlainOk chk sch s [.str "sweep_mode"] from ⟨e', h1, h2, h3 mode_good.2.2⟩, true_and]

theorem mode_isPlain {params : Cfg} (hp : ParamFile params) : IsPlain params [.str "sweep_mode"] := by
  obtain ⟨a, es, rfl⟩ := hp.top
  refine ⟨mode_good.2.2, a, ?_⟩
  simp [readAt]

theorem mode_notSwept {params : Cfg} (hp : ParamFile params) : ¬ IsSwept params [.str "sweep_mode"] := by
  obtain ⟨a, es, rfl⟩ := hp.top
  unfold IsSwept
  simp [readAt]

/-- Everything known about an accepted configuration. -/
theorem accepted {chk : ValueCheck} {params sch s : Cfg} {st : VState} (hp : ParamFile params) (hc : Clean sch) (hs : Clean s)
    (hD : PlainDefaults params s) (h : validateConfig chk params sch s = .ok st) :
    AllRight chk params sch s ∧ ∃ xs, (∀ p, (p, true) ∈ xs ↔ IsSwept params p) ∧ LoopEffect (afterMode s) st xs := by
  obtain ⟨xs, hxs, hgood, hpw, _, hiff⟩ := hp.rest
  obtain ⟨h1, h2⟩ := (validate_split chk hp hc hs hxs st).1 h
  have hD' : ∀ x ∈ xs, x.2 = true → readAt (afterMode s).settings (x.1 ++ [.str "sweep", .str "default", .str "sweep"]) = none := by
    rintro ⟨p, b⟩ hx hb
    rcases ((hiff p b).1 hx).2 with ⟨h, _⟩ | ⟨_, h⟩
    · rw [show b = true from hb] at h; cases h
    · exact hD p h
  obtain ⟨h3, h4⟩ := visits_ok chk hc xs (afterMode s) st hs hgood hpw hD' h2
  refine ⟨⟨fun p hpl => ?_, fun p hsw => ?_⟩, xs, fun p => ?_, h4⟩
  · by_cases hm : p = [.str "sweep_mode"]
    · rw [hm]; exact h1
    · exact h3 (p, false) ((hiff p false).2 ⟨hm, Or.inl ⟨rfl, hpl⟩⟩)
  · have hm : p ≠ [.str "sweep_mode"] := by rintro rfl; exact mode_notSwept hp hsw
    exact h3 (p, true) ((hiff p true).2 ⟨hm, Or.inr ⟨rfl, hsw⟩⟩)
  · constructor
    · intro hx
      rcases ((hiff p true).1 hx).2 with ⟨h, _⟩ | ⟨_, h⟩
      · cases h
      · exact h
    · intro hsw
      have hm : p ≠ [.str "sweep_mode"] := by rintro rfl; exact mode_notSwept hp hsw
      exact (hiff p true).2 ⟨hm, Or.inr ⟨rfl, hsw⟩⟩

end GeNSIT
