import Verif.Config.ExperimentLoop
import Verif.Config.ShippedProps

/-!
# Properties of the validation for one experiment (C104, C105)
-/

namespace GeNSIT

open Spec

/-! ### Checks for the examples -/

def isName : Key → Bool
  | .str _ => true
  | .idx _ => false

theorem isName_iff {k : Key} : isName k = true ↔ ∃ n, k = .str n := by
  cases k <;> simp [isName]

/-- A decidable form of `ExpSchema`. -/
def expOk (X : List (List Key × Cfg)) : Bool :=
  ((removedPaths X).all fun q => (q.getLast?.any isName) && !q.contains (.str "sweep") && decide (q.head? ≠ some (.str "sweep_mode")) &&
    q.all fun k => decide (toIndex k = k)) &&
  ((overrides X).all fun e => !e.1.isEmpty && e.1.all isName && ((subtrees e.2).all fun t => nodeOk t.2) &&
    ((subtrees e.2).all fun t => cleanNode t.2)) &&
  ((removedPaths X).all fun q => (overrides X).all fun e => !decide (e.1 <+: q))

theorem expSchema_of_check {X : List (List Key × Cfg)} (h : expOk X = true) : ExpSchema X := by
  unfold expOk at h
  simp only [Bool.and_eq_true, List.all_eq_true] at h
  obtain ⟨⟨h1, h2⟩, h3⟩ := h
  refine ⟨fun q hq => ?_, fun e he => ?_, fun q hq e he => ?_⟩
  · obtain ⟨⟨⟨h4, h5⟩, h6⟩, h7⟩ := h1 q hq
    refine ⟨?_, by simpa using h5, by simpa using h6, fun k hk => by simpa using h7 k hk⟩
    cases hl : q.getLast? with
    | none => rw [hl] at h4; cases h4
    | some k =>
      rw [hl] at h4
      obtain ⟨n, rfl⟩ := isName_iff.1 h4
      exact ⟨q.dropLast, n, (List.dropLast_append_getLast? _ hl).symm⟩
  · obtain ⟨⟨⟨h4, h5⟩, h6⟩, h7⟩ := h2 e he
    exact ⟨by simpa using h4, fun k hk => isName_iff.1 (h5 k hk),
      clean_of_check _ (List.all_eq_true.2 h6) (List.all_eq_true.2 h7)⟩
  · simpa using h3 q hq e he

/-! ## C104 -/

/-- **C104 (settings and parameters).**  The overrides of an experiment type remove from the settings and from the parameter
file exactly what lies in the excluded sections. -/
theorem C104_removed (X : List (List Key × Cfg)) (t t' : Trees) (hX : ExpSchema X) (hs : Clean t.settings) (hc : Clean t.schema)
    (hp : WellFormed t.params) (h : adjust X t = .ok t') :
    Cut (removedPaths X) t.settings t'.settings ∧ Cut (removedPaths X) t.params t'.params :=
  ⟨(adjust_effect X t t' hX hs hc hp h).1, (adjust_effect X t t' hX hs hc hp h).2.1⟩

/-- **C104 (schema).**  In the schema the excluded sections are gone, every override has its value unless it is excluded
(overrides not containing one another), and all else is as before. -/
theorem C104_schema (X : List (List Key × Cfg)) (t t' : Trees) (hX : ExpSchema X) (hs : Clean t.settings) (hc : Clean t.schema)
    (hp : WellFormed t.params) (h : adjust X t = .ok t') :
    (∀ p, Under (removedPaths X) p → readAt t'.schema p = none) ∧
    (∀ e ∈ overrides X, ¬ Under (removedPaths X) e.1 → (∀ x ∈ overrides X, x = e ∨ Unrelated x.1 e.1) →
      readAt t'.schema e.1 = some e.2) ∧
    (∀ p, (∀ q ∈ removedPaths X, Unrelated q p) → (∀ e ∈ overrides X, Unrelated e.1 p) →
      readAt t'.schema p = readAt t.schema p) := by
  obtain ⟨_, _, h3⟩ := adjust_effect X t t' hX hs hc hp h
  exact ⟨h3.gone, fun e he hu hx => h3.set e he (fun q hq h => hu ⟨q, hq, h⟩) hx, h3.same⟩

/-- An override of an entry that the schema does not have, and no other override creates, raises. -/
theorem C104_unknown_override (X : List (List Key × Cfg)) (t t' : Trees) (hX : ExpSchema X) (hs : Clean t.settings)
    (hc : Clean t.schema) (hp : WellFormed t.params) (e : List Key × Cfg) (he : e ∈ overrides X)
    (hmiss : readAt t.schema e.1 = none) (hx : ∀ x ∈ overrides X, x.1 = e.1 ∨ ¬ x.1 <+: e.1) : adjust X t ≠ .ok t' := by
  intro h
  have key : ∀ (Y : List (List Key × Cfg)) (u u' : Trees), ExpSchema Y → Clean u.settings → Clean u.schema → WellFormed u.params →
      e ∈ overrides Y → readAt u.schema e.1 = none → (∀ x ∈ overrides Y, x.1 = e.1 ∨ ¬ x.1 <+: e.1) → adjust Y u = .ok u' → False := by
    intro Y
    induction Y with
    | nil => intro u u' _ _ _ _ hm; cases hm
    | cons y Y ih =>
      intro u u' hY us uc uw hm hnone hap hadj
      rw [adjust] at hadj
      split at hadj
      · cases hadj
      · rename_i u1 hu1
        rw [overrides_cons] at hm hap
        have rest : ∀ x ∈ overrides Y, x.1 = e.1 ∨ ¬ x.1 <+: e.1 := fun x hx => hap x (List.mem_append_right _ hx)
        rcases adjustEntry_cases hu1 with ⟨hd, rfl⟩ | ⟨hd, hx, b1, b2, b3, d1, d2, d3⟩ | ⟨hd, hx, m1, m2, m3, m4⟩
        · exact ih u1 u' hY.tail us uc uw
            (by rw [if_neg (fun h => by rw [hd] at h; cases h.1), List.nil_append] at hm; exact hm) hnone rest hadj
        · have hq : y.1.dropLast ∈ removedPaths (y :: Y) := by rw [removed_cons, if_pos ⟨hd, hx⟩]; simp
          obtain ⟨q1, _, _, q4⟩ := hY.removed _ hq
          have cut : ∀ {s s' : Cfg} {b : Bool}, WellFormed s → pathDelete s y.1.dropLast = some (s', b) → Cut [y.1.dropLast] s s' := by
            intro s s' b hw hdel
            rcases pathDelete_cut _ s hw q1 q4 with h | ⟨s2, b', h, hc⟩
            · rw [h] at hdel; cases hdel
            · rw [h] at hdel; cases hdel; exact hc
          exact ih u1 u' hY.tail (cut_clean (cut us.wf d1) us) (cut_clean (cut uc.wf d2) uc) (cut_wf (cut uw d3) uw)
            (by simpa [hx] using hm) (cut_none (cut uc.wf d2) hnone) rest hadj
        · have hyo : y ∈ overrides (y :: Y) := by rw [overrides_cons, if_pos ⟨hd, hx⟩]; simp
          obtain ⟨y1, y2, y3⟩ := hY.over y hyo
          have hsome : (readAt u.schema y.1).isSome := by
            cases hr : readAt u.schema y.1 with
            | some _ => rfl
            | none =>
              exfalso
              have := pathModify_absent y.2 y.1 u.schema u1.schema true uc y2 hr m1
              rw [this, pathGet_clean uc (names_endsInName y1 y2), hr] at m2
              cases m2
          obtain ⟨s', g1, g2, g3, g4, g5⟩ := pathModify_clean y.2 y3 y.1 u.schema uc y1 y2 hsome
          rw [m1] at g1
          cases g1
          have hne : y.1 ≠ e.1 := by
            intro h; rw [h, hnone] at hsome; cases hsome
          have hnp : ¬ e.1 <+: y.1 := by
            rintro ⟨r, hr⟩
            rw [← hr, readAt_prefix_none hnone] at hsome
            cases hsome
          have hyq : ¬ y.1 <+: e.1 := (hap y (by rw [if_pos ⟨hd, hx⟩]; simp)).resolve_left hne
          refine ih u1 u' hY.tail (by rw [m3]; exact us) g2 (by rw [m4]; exact uw) ?_ ?_ rest hadj
          · rcases List.mem_append.1 hm with hm | hm
            · rw [if_pos ⟨hd, hx⟩, List.mem_singleton] at hm
              exact absurd (by rw [hm]) hne
            · exact hm
          · rw [g4 _ (unrelated_of hyq hnp)]; exact hnone
  exact key X t t' hX hs hc hp he hmiss hx h

/-- An override that leads through a list is accepted and silently not applied. -/
theorem C104_through_list_false :
    let schema : Cfg := .node false [(.str "experiments", .node true [(.idx 0, .node false [(.str "seed", .node false
      [(.str "optional", .leaf (.bool false))])])])]
    let p : List Key := [.str "experiments", .idx 0, .str "seed", .str "optional"]
    ∃ t', adjust [(p, .leaf (.bool true))] ⟨Cfg.empty, schema, Cfg.empty⟩ = .ok t' ∧
      readAt t'.schema p = some (.leaf (.bool false)) := ⟨_, rfl, rfl⟩

/-! ### The shipped experiment schemas -/

namespace Shipped

set_option maxRecDepth 100000

theorem experiments_ok : (experiments.all fun x => expOk x.2) = true := by decide +kernel

theorem experiments_schema {name : String} {X : List (List Key × Cfg)} (h : (name, X) ∈ experiments) : ExpSchema X :=
  expSchema_of_check ((List.all_eq_true.1 experiments_ok) _ h)

theorem adjusts : (experiments.all fun x => (adjust x.2 ⟨Cfg.empty, schema, params⟩).isOk) = true := by decide +kernel

theorem excluded_listed : (experiments.all fun x => (removedPaths x.2).all fun q => (readAt params q).isSome) = true := by
  decide +kernel

end Shipped

/-- Whether the trees can be adjusted does not depend on the settings. -/
theorem adjust_settings (X : List (List Key × Cfg)) : ∀ (s s2 c p : Cfg) (t' : Trees), s2.isDict = true →
    adjust X ⟨s, c, p⟩ = .ok t' → ∃ s2', adjust X ⟨s2, c, p⟩ = .ok ⟨s2', t'.schema, t'.params⟩ ∧ s2'.isDict = true := by
  induction X with
  | nil => intro s s2 c p t' hd h; cases h; exact ⟨s2, rfl, hd⟩
  | cons e X ih =>
    intro s s2 c p t' hd h
    rw [adjust] at h
    split at h
    · cases h
    · rename_i t1 h1
      have : ∃ s2', adjustEntry e ⟨s2, c, p⟩ = .ok ⟨s2', t1.schema, t1.params⟩ ∧ s2'.isDict = true := by
        rcases adjustEntry_cases h1 with ⟨h2, rfl⟩ | ⟨h2, hx, b1, b2, b3, d1, d2, d3⟩ | ⟨h2, hx, m1, m2, m3, m4⟩
        · exact ⟨s2, by unfold adjustEntry; rw [if_pos h2], hd⟩
        · obtain ⟨s2', b, h3, h4⟩ := pathDelete_dict hd e.1.dropLast
          refine ⟨s2', ?_, h4⟩
          unfold adjustEntry
          simp only at d2 d3
          rw [if_neg (by rw [h2]; simp), if_pos hx, h3, d2, d3]
        · refine ⟨s2, ?_, hd⟩
          unfold adjustEntry
          simp only at m1 m4
          rw [if_neg (by rw [h2]; simp), if_neg (by rw [hx]; simp), m1]
          simp only [m2, if_true, m4]
      obtain ⟨s2', h3, h4⟩ := this
      rw [adjust, h3]
      obtain ⟨ts, tc, tp⟩ := t1
      exact ih ts s2' tc tp t' h4 h

/-- **C104 (shipped files).**  For every shipped experiment type and all settings, adjusting the shipped schema and parameter
file succeeds, the excluded sections exist, and the result is again a parameter file and a schema. -/
theorem C104_shipped (name : String) (X : List (List Key × Cfg)) (hX : (name, X) ∈ Shipped.experiments) (s : Cfg) (hs : Clean s)
    (hd : s.isDict = true) : ∃ t', adjust X ⟨s, Shipped.schema, Shipped.params⟩ = .ok t' ∧ ParamFile t'.params ∧ Clean t'.schema ∧
      Clean t'.settings ∧ ∀ q ∈ removedPaths X, (readAt Shipped.params q).isSome := by
  have h1 := (List.all_eq_true.1 Shipped.adjusts) _ hX
  simp only at h1
  cases h : adjust X ⟨Cfg.empty, Shipped.schema, Shipped.params⟩ with
  | error e => rw [h] at h1; cases h1
  | ok t0 =>
    obtain ⟨s', h2, _⟩ := adjust_settings X _ s _ _ _ hd h
    have hexp := Shipped.experiments_schema hX
    obtain ⟨e1, e2, e3⟩ := adjust_effect X _ _ hexp hs Shipped.schema_clean Shipped.params_file.wf h2
    refine ⟨_, h2, cut_paramFile e2 (fun q hq => (hexp.removed q hq).2.1) ?_ Shipped.params_file, e3.clean, cut_clean e1 hs, ?_⟩
    · intro q hq
      obtain ⟨r1, _, r3, _⟩ := hexp.removed q hq
      cases q with
      | nil => exact absurd rfl r1.ne
      | cons k r =>
        simp only [List.head?_cons, ne_eq, Option.some.injEq] at r3
        exact ⟨fun h => r3 (by rw [List.cons_prefix_cons] at h; exact h.1), fun h => r3 (by rw [List.cons_prefix_cons] at h; exact h.1.symm)⟩
    · have := (List.all_eq_true.1 Shipped.excluded_listed) _ hX
      simpa using this

example : ∃ X, ("Table_MCMC", X) ∈ Shipped.experiments ∧ [Key.str "harris_wilson_model"] ∈ removedPaths X :=
  ⟨_, List.mem_of_mem_getLast? (by rfl), by decide +kernel⟩

/-! ## C105 -/

/-- A configuration for one experiment of a known type: what `experiment_validate` does. -/
theorem experimentValidate_known (chk : ValueCheck) (XX : List (String × List (List Key × Cfg))) (t : Trees) (name : String)
    (X : List (List Key × Cfg)) (hty : experimentType t.settings = some (.leaf (.str name))) (hX : XX.lookup name = some X)
    (st : VState) (t' : Trees) : experimentValidate chk XX t = .ok (st, t') ↔
      adjust X t = .ok t' ∧ validateConfig chk t'.params t'.schema t'.settings = .ok st := by
  unfold experimentValidate
  rw [hty]
  simp only [hX]
  cases h : adjust X t with
  | error e => simp
  | ok t1 =>
    simp only
    constructor
    · intro h'
      split at h'
      · cases h'
      · rename_i st' hv
        cases h'
        exact ⟨rfl, hv⟩
    · rintro ⟨h1, h2⟩
      cases h1
      rw [h2]

/-- **C105.**  A configuration accepted for one experiment is right about every parameter outside the excluded sections,
according to the adjusted schema; parameters in excluded sections are not looked at. -/
theorem C105_accepted (chk : ValueCheck) (XX : List (String × List (List Key × Cfg))) (t : Trees) (name : String)
    (X : List (List Key × Cfg)) (hty : experimentType t.settings = some (.leaf (.str name))) (hXX : XX.lookup name = some X)
    (hX : ExpSchema X) (hs : Clean t.settings) (hc : Clean t.schema) (hp : ParamFile t.params)
    (hD : PlainDefaults t.params t.settings) (st : VState) (t' : Trees) (h : experimentValidate chk XX t = .ok (st, t')) :
    (∀ p, IsPlain t.params p → ¬ Under (removedPaths X) p → PlainOk chk t'.schema t'.settings p) ∧
    (∀ p, IsSwept t.params p → ¬ Under (removedPaths X) p → SweptOk chk t'.schema t'.settings (sweepsOn t.settings) p) := by
  obtain ⟨h1, h2⟩ := (experimentValidate_known chk XX t name X hty hXX st t').1 h
  obtain ⟨e1, e2, e3⟩ := adjust_effect X t t' hX hs hc hp.wf h1
  have hQ : ∀ q ∈ removedPaths X, Key.str "sweep" ∉ q := fun q hq => (hX.removed q hq).2.1
  have hM : ∀ q ∈ removedPaths X, Unrelated q [.str "sweep_mode"] := by
    intro q hq
    obtain ⟨r1, _, r3, _⟩ := hX.removed q hq
    cases q with
    | nil => exact absurd rfl r1.ne
    | cons k r =>
      simp only [List.head?_cons, ne_eq, Option.some.injEq] at r3
      exact ⟨fun h => r3 (by rw [List.cons_prefix_cons] at h; exact h.1), fun h => r3 (by rw [List.cons_prefix_cons] at h; exact h.1.symm)⟩
  have hon : sweepsOn t'.settings = sweepsOn t.settings := by unfold sweepsOn; rw [e1.same _ hM]
  have hD' : PlainDefaults t'.params t'.settings := by
    intro p hsw
    obtain ⟨h3, h4⟩ := (cut_swept e2 hQ p).1 hsw
    exact cut_none e1 (hD p h3)
  obtain ⟨a1, a2⟩ := C98_accepted chk _ _ _ st (cut_paramFile e2 hQ hM hp) e3.clean (cut_clean e1 hs) hD' h2
  rw [hon] at a2
  exact ⟨fun p h3 h4 => a1 p ((cut_plain e2 p).2 ⟨h3, h4⟩), fun p h3 h4 => a2 p ((cut_swept e2 hQ p).2 ⟨h3, h4⟩)⟩

/-- **C105 (excluded sections do not matter).**  Two settings for the same experiment type that agree outside the excluded
sections are both accepted or both not. -/
theorem C105_excluded_ignored (chk : ValueCheck) (XX : List (String × List (List Key × Cfg))) (s s2 sch params : Cfg) (name : String)
    (X : List (List Key × Cfg)) (hty : experimentType s = some (.leaf (.str name)))
    (hty2 : experimentType s2 = some (.leaf (.str name))) (hXX : XX.lookup name = some X)
    (hX : ExpSchema X) (hin : ∀ q ∈ removedPaths X, (readAt params q).isSome) (hs : Clean s) (hs2 : Clean s2)
    (hc : Clean sch) (hp : ParamFile params) (hD : PlainDefaults params s) (hn : ∀ p, IsSwept params p → NotCoupled s p)
    (hagree : ∀ p, (∀ q ∈ removedPaths X, Unrelated q p) → readAt s2 p = readAt s p) :
    (∃ r, experimentValidate chk XX ⟨s, sch, params⟩ = .ok r) ↔ ∃ r, experimentValidate chk XX ⟨s2, sch, params⟩ = .ok r := by
  have hQ : ∀ q ∈ removedPaths X, Key.str "sweep" ∉ q := fun q hq => (hX.removed q hq).2.1
  have hM : ∀ q ∈ removedPaths X, Unrelated q [.str "sweep_mode"] := by
    intro q hq
    obtain ⟨r1, _, r3, _⟩ := hX.removed q hq
    cases q with
    | nil => exact absurd rfl r1.ne
    | cons k r =>
      simp only [List.head?_cons, ne_eq, Option.some.injEq] at r3
      exact ⟨fun h => r3 (by rw [List.cons_prefix_cons] at h; exact h.1), fun h => r3 (by rw [List.cons_prefix_cons] at h; exact h.1.symm)⟩
  have dict_of : ∀ {s : Cfg}, Clean s → experimentType s = some (.leaf (.str name)) → s.isDict = true := by
    intro s hs h
    cases s with
    | leaf a => cases a <;> cases h
    | node l es =>
      cases l with
      | false => rfl
      | true => simp [experimentType, Cfg.getItem, list_no_str hs.wf] at h
  -- a parameter that is not excluded has no excluded section below it
  have above : ∀ p, (IsPlain params p ∨ IsSwept params p) → ¬ Under (removedPaths X) p → ∀ q ∈ removedPaths X, Unrelated q p := by
    intro p hk hu q hq
    refine unrelated_of (fun h => hu ⟨q, hq, h⟩) ?_
    rintro ⟨r, rfl⟩
    cases r with
    | nil => exact hu ⟨p, by simpa using hq, List.prefix_refl _⟩
    | cons k r =>
      have hr := hin _ hq
      rcases hk with ⟨_, a, ha⟩ | hk
      · rw [readAt_append, ha] at hr; cases hr
      · obtain ⟨v, hv⟩ := Option.isSome_iff_exists.1 hk
        obtain ⟨h1, _⟩ := hp.sweeps p v hv
        rw [readAt_append, h1] at hr
        simp only [Option.bind_some, readAt] at hr
        by_cases hks : k = .str "sweep"
        · exact hQ _ hq (by simp [hks])
        · have : List.lookup k [(Key.str "sweep", v)] = none := by
            simp [List.lookup_cons, show (k == Key.str "sweep") = false by simpa using hks]
          rw [this] at hr; cases hr
  have main : ∀ (u u2 : Cfg), Clean u → Clean u2 → PlainDefaults params u → (∀ p, IsSwept params p → ¬ Under (removedPaths X) p → NotCoupled u p) →
      u2.isDict = true →
      (∀ p, (∀ q ∈ removedPaths X, Unrelated q p) → readAt u2 p = readAt u p) →
      experimentType u = some (.leaf (.str name)) → experimentType u2 = some (.leaf (.str name)) →
      (∃ r, experimentValidate chk XX ⟨u, sch, params⟩ = .ok r) → ∃ r, experimentValidate chk XX ⟨u2, sch, params⟩ = .ok r := by
    rintro u u2 hu hu2 hDu hnu hdu hag ty1 ty2 ⟨⟨st, t'⟩, h⟩
    obtain ⟨h1, h2⟩ := (experimentValidate_known chk XX ⟨u, sch, params⟩ name X ty1 hXX st t').1 h
    obtain ⟨e1, e2, e3⟩ := adjust_effect X _ t' hX hu hc hp.wf h1
    obtain ⟨u2', h3, _⟩ := adjust_settings X u u2 sch params t' hdu h1
    obtain ⟨f1, _, _⟩ := adjust_effect X _ _ hX hu2 hc hp.wf h3
    have hpf := cut_paramFile e2 hQ hM hp
    have hD' : PlainDefaults t'.params t'.settings := fun p hsw => cut_none e1 (hDu p ((cut_swept e2 hQ p).1 hsw).1)
    have hn' : ∀ p, IsSwept t'.params p → NotCoupled t'.settings p := by
      intro p hsw c hcp
      obtain ⟨h4, h5⟩ := (cut_swept e2 hQ p).1 hsw
      refine hnu p h4 h5 c ?_
      rw [← hcp]
      exact (cut_sweep e1 hQ h5 [.str "coupled"]).symm
    have hag' : AgreeOn t'.params t'.settings u2' := by
      intro p hk r
      have hk' : (IsPlain params p ∨ IsSwept params p) ∧ ¬ Under (removedPaths X) p := by
        rcases hk with hk | hk
        · obtain ⟨h4, h5⟩ := (cut_plain e2 p).1 hk; exact ⟨Or.inl h4, h5⟩
        · obtain ⟨h4, h5⟩ := (cut_swept e2 hQ p).1 hk; exact ⟨Or.inr h4, h5⟩
      have hun : ∀ q ∈ removedPaths X, Unrelated q (p ++ r) := fun q hq => (above p hk'.1 hk'.2 q hq).append r
      rw [e1.same _ hun, f1.same _ hun]
      exact hag _ hun
    obtain ⟨st2, h4⟩ := (C102_unlisted_ignored chk t'.params t'.schema t'.settings u2' hpf e3.clean (cut_clean e1 hu)
      (cut_clean f1 hu2) hD' hn' hag').1 ⟨st, h2⟩
    exact ⟨_, (experimentValidate_known chk XX ⟨u2, sch, params⟩ name X ty2 hXX st2 ⟨u2', t'.schema, t'.params⟩).2 ⟨h3, h4⟩⟩
  constructor
  · exact main s s2 hs hs2 hD (fun p h _ => hn p h) (dict_of hs2 hty2) hagree hty hty2
  · -- the other direction: defaults and couplings of `s2` outside the excluded sections are those of `s`
    rintro ⟨⟨st, t'⟩, h⟩
    obtain ⟨h1, h2⟩ := (experimentValidate_known chk XX ⟨s2, sch, params⟩ name X hty2 hXX st t').1 h
    obtain ⟨f1, f2, f3⟩ := adjust_effect X _ t' hX hs2 hc hp.wf h1
    obtain ⟨s', h3, _⟩ := adjust_settings X s2 s sch params t' (dict_of hs hty) h1
    obtain ⟨e1, _, _⟩ := adjust_effect X _ _ hX hs hc hp.wf h3
    have hpf := cut_paramFile f2 hQ hM hp
    have hD' : PlainDefaults t'.params s' := fun p hsw => cut_none e1 (hD p ((cut_swept f2 hQ p).1 hsw).1)
    have hn' : ∀ p, IsSwept t'.params p → NotCoupled s' p := by
      intro p hsw c hcp
      obtain ⟨h4, h5⟩ := (cut_swept f2 hQ p).1 hsw
      refine hn p h4 c ?_
      rw [← hcp]
      exact (cut_sweep e1 hQ h5 [.str "coupled"]).symm
    have hag' : AgreeOn t'.params s' t'.settings := by
      intro p hk r
      have hk' : (IsPlain params p ∨ IsSwept params p) ∧ ¬ Under (removedPaths X) p := by
        rcases hk with hk | hk
        · obtain ⟨h4, h5⟩ := (cut_plain f2 p).1 hk; exact ⟨Or.inl h4, h5⟩
        · obtain ⟨h4, h5⟩ := (cut_swept f2 hQ p).1 hk; exact ⟨Or.inr h4, h5⟩
      have hun : ∀ q ∈ removedPaths X, Unrelated q (p ++ r) := fun q hq => (above p hk'.1 hk'.2 q hq).append r
      rw [e1.same _ hun, f1.same _ hun]
      exact hagree _ hun
    obtain ⟨st2, h4⟩ := (C102_unlisted_ignored chk t'.params t'.schema s' t'.settings hpf f3.clean (cut_clean e1 hs)
      (cut_clean f1 hs2) hD' hn' hag').2 ⟨st, h2⟩
    exact ⟨_, (experimentValidate_known chk XX ⟨s, sch, params⟩ name X hty hXX st2 ⟨s', t'.schema, t'.params⟩).2 ⟨h3, h4⟩⟩

/-- A configuration with no or several experiments raises. -/
theorem C105_one_experiment (chk : ValueCheck) (XX : List (String × List (List Key × Cfg))) (t : Trees) (l : Bool)
    (es : List (Key × Cfg)) (h : readAt t.settings [.str "experiments"] = some (.node l es)) (hlen : es.length ≠ 1) :
    experimentValidate chk XX t = .error .raised := by
  have : experimentType t.settings = none := by
    unfold experimentType
    have hg : t.settings.getItem (.str "experiments") = some (.node l es) := by
      cases hs : t.settings with
      | leaf a => rw [hs] at h; cases h
      | node l' es' =>
        rw [hs] at h
        simp only [readAt] at h
        simp only [Cfg.getItem]
        cases hk : es'.lookup (.str "experiments") with
        | none => rw [hk] at h; cases h
        | some v => rw [hk] at h; simpa using h
    rw [hg]
    match es, hlen with
    | [], _ => rfl
    | [_], h => exact absurd rfl h
    | _ :: _ :: _, _ => rfl
  unfold experimentValidate
  rw [this]

/-- An experiment type without a schema of its own is validated against the general schema. -/
theorem C105_unknown_type (chk : ValueCheck) (XX : List (String × List (List Key × Cfg))) (t : Trees) (name : String)
    (hty : experimentType t.settings = some (.leaf (.str name))) (hX : XX.lookup name = none) :
    experimentValidate chk XX t = (validateConfig chk t.params t.schema t.settings).map fun st => (st, t) := by
  unfold experimentValidate
  rw [hty]
  simp only [hX]
  cases validateConfig chk t.params t.schema t.settings <;> rfl

/-! ### An example -/

namespace ExpEx

open ValEx

def schemas : List (String × List (List Key × Cfg)) :=
  [("Table", [([.str "inputs", .str "margins", .str "exclude"], yes), ([.str "inputs", .str "n_workers", .str "optional"], yes)])]

def theSchema : Cfg := schema

def theSettings (x : Cfg) : Cfg := dict [("sweep_mode", no), ("experiments", single (dict [("type", txt "Table")])),
  ("inputs", dict [("seed", num 3), ("margins", x)])]

example : ExpSchema (schemas.head!).2 := expSchema_of_check (by decide +kernel)

/-- Without the experiment schema the missing worker count is an error; with it the configuration is accepted, whatever the
excluded section holds. -/
example : (∃ r, experimentValidate check schemas ⟨theSettings (txt "anything"), schema, params⟩ = .ok r) ∧
    (∃ r, experimentValidate check schemas ⟨theSettings (single (dict [("file", num 1)])), schema, params⟩ = .ok r) ∧
    (∀ st, validateConfig check params schema (theSettings (single (dict [("file", num 1)]))) ≠ .ok st) := by
  refine ⟨⟨_, rfl⟩, ⟨_, rfl⟩, fun st h => ?_⟩
  have : validateConfig check params schema (theSettings (single (dict [("file", num 1)]))) = .error .raised := rfl
  rw [this] at h
  cases h

end ExpEx

end GeNSIT
