import Verif.Config.ValidateLoop

/-!
# Properties of configuration validation (C98–C103)
-/

namespace GeNSIT

open Spec

/-! ### A parameter file, a schema and settings for the examples -/

/-- The shape conditions of `ParamTree` at one node. -/
def paramNodeOk : Cfg → Bool
  | .leaf _ => true
  | .node true es => es.all fun e => match e.2 with
    | .node false es' => (es'.lookup (.str "sweep")).isNone
    | _ => false
  | .node false es => (es.all fun e => match e.1 with | .str _ => true | .idx _ => false) &&
    match es.lookup (.str "sweep") with
    | none => true
    | some _ => match es with
      | [(_, .node false [(k1, .leaf _), (k2, .leaf _)])] => k1 == .str "default" && k2 == .str "range"
      | _ => false

theorem paramTree_of_check (c : Cfg) (h1 : ((subtrees c).all fun t => nodeOk t.2) = true)
    (h2 : ((subtrees c).all fun t => decide t.1.Nodup) = true) (h3 : ((subtrees c).all fun t => paramNodeOk t.2) = true) :
    ParamTree c := by
  have key : ∀ p x, readAt c p = some x → paramNodeOk x = true := fun p x hx =>
    (List.all_eq_true.1 h3) (p, x) (mem_subtrees p c x hx)
  have hdist : ∀ p, (readAt c p).isSome → p.Nodup := by
    intro p hp
    obtain ⟨x, hx⟩ := Option.isSome_iff_exists.1 hp
    simpa using (List.all_eq_true.1 h2) (p, x) (mem_subtrees p c x hx)
  refine ⟨wellFormed_of_check c h1, hdist, ?_, ?_, ?_⟩
  · intro p v hv
    rw [readAt_append] at hv
    cases hp : readAt c p with
    | none => rw [hp] at hv; cases hv
    | some x =>
      rw [hp] at hv
      cases x with
      | leaf a => cases hv
      | node l es =>
        have hl : es.lookup (.str "sweep") = some v := by
          simp only [Option.bind_some, readAt] at hv
          cases hk : es.lookup (.str "sweep") with
          | none => rw [hk] at hv; cases hv
          | some w => rw [hk] at hv; simpa using hv
        cases l with
        | true => rw [list_no_str (fun q l' es' hq => wellFormed_of_check c h1 (p ++ q) l' es' (by rw [readAt_append, hp]; exact hq))] at hl; cases hl
        | false =>
          have hn := key p _ hp
          simp only [paramNodeOk, hl, Bool.and_eq_true] at hn
          obtain ⟨_, hn⟩ := hn
          split at hn
          · rename_i k0 k1 a k2 b _
            simp only [Bool.and_eq_true, beq_iff_eq] at hn
            obtain ⟨rfl, rfl⟩ := hn
            have hk0 : k0 = .str "sweep" ∧ v = .node false [(.str "default", .leaf a), (.str "range", .leaf b)] := by
              have := lookup_mem hl
              simp only [List.mem_singleton, Prod.mk.injEq] at this
              exact ⟨this.1.symm, this.2⟩
            obtain ⟨rfl, rfl⟩ := hk0
            exact ⟨rfl, a, b, rfl⟩
          · cases hn
  · intro p es hp e he
    have hn := key p _ hp
    simp only [paramNodeOk, List.all_eq_true] at hn
    have := hn e he
    split at this
    · rename_i es' hes
      exact ⟨es', hes, by simpa using this⟩
    · cases this
  · intro p es hp e he
    have hn := key p _ hp
    simp only [paramNodeOk, Bool.and_eq_true, List.all_eq_true] at hn
    have := hn.1 e he
    split at this
    · rename_i n hn; exact ⟨n, hn⟩
    · cases this

theorem mode_of_check (c : Cfg) (h : ((subtrees c).all fun t => decide (t.1.length ≤ 1 ∨ t.1.getLast? ≠ some (.str "sweep_mode"))) = true) :
    ∀ p, p ≠ [] → readAt c (p ++ [.str "sweep_mode"]) = none := by
  intro p hp
  cases hr : readAt c (p ++ [.str "sweep_mode"]) with
  | none => rfl
  | some x =>
    exfalso
    have := (List.all_eq_true.1 h) (_, x) (mem_subtrees _ c x hr)
    simp only [List.length_append, List.length_singleton, List.getLast?_concat, decide_eq_true_eq] at this
    rcases this with h | h
    · have : 0 < p.length := List.length_pos_of_ne_nil hp
      omega
    · exact h rfl

/-- A value without the text `not-found`, and string keys in dictionaries. -/
def cleanNode : Cfg → Bool
  | .leaf (.str "not-found") => false
  | .leaf _ => true
  | .node true _ => true
  | .node false es => es.all fun e => match e.1 with | .str _ => true | .idx _ => false

theorem clean_of_check (c : Cfg) (h1 : ((subtrees c).all fun t => nodeOk t.2) = true)
    (h2 : ((subtrees c).all fun t => cleanNode t.2) = true) : Clean c := by
  have key : ∀ p x, readAt c p = some x → cleanNode x = true := fun p x hx =>
    (List.all_eq_true.1 h2) (p, x) (mem_subtrees p c x hx)
  refine ⟨wellFormed_of_check c h1, fun p hp => ?_, fun p es hp e he => ?_⟩
  · have := key p _ hp; cases this
  · have := key p _ hp
    simp only [cleanNode, List.all_eq_true] at this
    have := this e he
    split at this
    · rename_i n hn; exact ⟨n, hn⟩
    · cases this

namespace ValEx

def yes : Cfg := .leaf (.bool true)
def no : Cfg := .leaf (.bool false)
def dict (es : List (String × Cfg)) : Cfg := .node false (es.map fun e => (.str e.1, e.2))
def single (c : Cfg) : Cfg := .node true [(.idx 0, c)]
def num (x : Int) : Cfg := .leaf (.num x)
def txt (x : String) : Cfg := .leaf (.str x)
def swp : Cfg := dict [("sweep", dict [("default", yes), ("range", yes)])]

/-- Parameters: `sweep_mode`, a sweepable seed, a worker count, and a sweepable file in two lists. -/
def params : Cfg := dict [("sweep_mode", yes),
  ("inputs", dict [("seed", swp), ("n_workers", yes), ("margins", single (dict [("file", swp)])),
    ("cells_subset", single (dict [("file", swp)]))])]

def entry (sweepable optional : Bool) (es : List (String × Cfg)) : Cfg :=
  dict ([("sweepable", .leaf (.bool sweepable)), ("optional", .leaf (.bool optional))] ++ es)

def sweepEntry : List (String × Cfg) := [("sweep", dict [("default", dict [("dtype", txt "int")]), ("range", dict [("dtype", txt "list")])])]

def schema : Cfg := dict [("sweep_mode", entry false false [("dtype", txt "bool")]),
  ("inputs", dict [("seed", entry true false sweepEntry), ("n_workers", entry false false [("dtype", txt "int")]),
    ("margins", single (dict [("file", entry true true sweepEntry)])),
    ("cells_subset", single (dict [("file", entry true true sweepEntry)]))])]

/-- A toy value check: texts never pass, the `dtype` list wants a container. -/
def check : ValueCheck := fun sch v => match sch.getItem (.str "dtype"), v with
  | some (.leaf (.str "int")), .leaf (.num _) => .ok
  | some (.leaf (.str "bool")), .leaf (.bool _) => .ok
  | some (.leaf (.str "list")), .node true _ => .ok
  | some (.leaf (.str "list")), _ => .badConstructor
  | _, _ => .badCheck

def range3 : Cfg := .node true [(.idx 0, num 1), (.idx 1, num 2), (.idx 2, num 3)]

/-- Settings with a swept seed and an entry `typo` that no parameter file knows. -/
def settings (mode : Bool) : Cfg := dict [("sweep_mode", .leaf (.bool mode)),
  ("inputs", dict [("seed", dict [("sweep", dict [("default", num 5), ("range", range3)])]), ("n_workers", num 2), ("typo", txt "x")])]

/-- The same without a range, and with a default of the wrong type. -/
def unranged : Cfg := dict [("sweep_mode", yes),
  ("inputs", dict [("seed", dict [("sweep", dict [("default", txt "five")])]), ("n_workers", num 2)])]

/-- Two swept files inside lists. -/
def listed (mode : Bool) : Cfg := dict [("sweep_mode", .leaf (.bool mode)),
  ("inputs", dict [("seed", num 3), ("n_workers", num 2),
    ("margins", single (dict [("file", dict [("sweep", dict [("default", num 1), ("range", range3)])])])),
    ("cells_subset", single (dict [("file", dict [("sweep", dict [("default", num 2), ("range", range3)])])]))])]

theorem params_file : ParamFile params := by
  refine ⟨paramTree_of_check _ (by decide +kernel) (by decide +kernel) (by decide +kernel), ⟨_, _, rfl⟩, ?_, rfl⟩
  exact mode_of_check _ (by decide +kernel)

theorem schema_clean : Clean schema := clean_of_check _ (by decide +kernel) (by decide +kernel)

theorem settings_clean (b : Bool) : Clean (settings b) := by
  cases b <;> exact clean_of_check _ (by decide +kernel) (by decide +kernel)

theorem unranged_clean : Clean unranged := clean_of_check _ (by decide +kernel) (by decide +kernel)

theorem listed_clean (b : Bool) : Clean (listed b) := by
  cases b <;> exact clean_of_check _ (by decide +kernel) (by decide +kernel)

/-- No `sweep` two levels below a `sweep`. -/
theorem defaults_of_check (params s : Cfg)
    (h : ((subtrees s).all fun t => decide (t.1.count (.str "sweep") ≤ 1)) = true) : PlainDefaults params s := by
  intro p _
  cases hr : readAt s (p ++ [.str "sweep", .str "default", .str "sweep"]) with
  | none => rfl
  | some x =>
    exfalso
    have := (List.all_eq_true.1 h) (_, x) (mem_subtrees _ s x hr)
    simp [List.count_append] at this

theorem uncoupled_of_check (s : Cfg) (h : ((subtrees s).all fun t => decide (t.1.getLast? ≠ some (.str "coupled"))) = true) (p : List Key) :
    NotCoupled s p := by
  intro c hc
  exfalso
  have := (List.all_eq_true.1 h) (_, c) (mem_subtrees _ s c hc)
  rw [app2, List.getLast?_concat] at this
  simp at this

end ValEx

/-! ## C98 -/

/-- **C98.**  An accepted configuration is right about every parameter: values pass their check, compulsory parameters are
there, sweeps are given only where they are allowed and with a default. -/
theorem C98_accepted (chk : ValueCheck) (params sch s : Cfg) (st : VState) (hp : ParamFile params) (hc : Clean sch) (hs : Clean s)
    (hD : PlainDefaults params s) (h : validateConfig chk params sch s = .ok st) : AllRight chk params sch s :=
  (accepted hp hc hs hD h).1

/-- **C98 (exact).**  Without coupled sweeps, a configuration is accepted exactly when it is right about every parameter. -/
theorem C98_exact (chk : ValueCheck) (params sch s : Cfg) (hp : ParamFile params) (hc : Clean sch) (hs : Clean s)
    (hD : PlainDefaults params s) (hn : ∀ p, IsSwept params p → NotCoupled s p) :
    (∃ st, validateConfig chk params sch s = .ok st) ↔ AllRight chk params sch s := by
  refine ⟨fun ⟨st, h⟩ => C98_accepted chk params sch s st hp hc hs hD h, fun ⟨h1, h2⟩ => ?_⟩
  obtain ⟨xs, hxs, hgood, hpw, _, hiff⟩ := hp.rest
  have hsw : ∀ x ∈ xs, x.2 = true → IsSwept params x.1 := by
    rintro ⟨p, b⟩ hx hb
    rcases ((hiff p b).1 hx).2 with ⟨h, _⟩ | ⟨_, h⟩
    · rw [show b = true from hb] at h; cases h
    · exact h
  obtain ⟨st, hst⟩ := visits_succeeds chk hc xs (afterMode s) hs hgood hpw (fun x hx hb => hD _ (hsw x hx hb))
    (fun x hx hb => hn _ (hsw x hx hb)) (by
      rintro ⟨p, b⟩ hx
      rcases ((hiff p b).1 hx).2 with ⟨rfl, h⟩ | ⟨rfl, h⟩
      · exact h1 p h
      · exact h2 p h)
  exact ⟨st, (validate_split chk hp hc hs hxs st).2 ⟨h1 _ (mode_isPlain hp), hst⟩⟩

/-- **C98 (rejections).**  A compulsory parameter that is missing, a value that fails its check, a sweep of a parameter that may
not be swept, or a sweep without a default: the configuration is not accepted. -/
theorem C98_rejected (chk : ValueCheck) (params sch s : Cfg) (hp : ParamFile params) (hc : Clean sch) (hs : Clean s)
    (hD : PlainDefaults params s) (p : List Key)
    (hbad : ((IsPlain params p ∨ IsSwept params p) ∧ readAt s p = none ∧ ¬ MayBeMissing sch p) ∨
      (IsPlain params p ∧ ∃ e v, readAt sch p = some e ∧ readAt s p = some v ∧ chk e v ≠ .ok) ∨
      (IsSwept params p ∧ (readAt s (p ++ [.str "sweep"])).isSome ∧ ¬ MaySweep sch p) ∨
      (IsSwept params p ∧ (readAt s (p ++ [.str "sweep"])).isSome ∧ readAt s (p ++ [.str "sweep", .str "default"]) = none)) :
    ∀ st, validateConfig chk params sch s ≠ .ok st := by
  intro st h
  obtain ⟨h1, h2⟩ := C98_accepted chk params sch s st hp hc hs hD h
  rcases hbad with ⟨hk, hm, hno⟩ | ⟨hk, e, v, he, hv, hno⟩ | ⟨hk, hg, hno⟩ | ⟨hk, hg, hno⟩
  · rcases hk with hk | hk
    · obtain ⟨_, _, _, h3⟩ := h1 p hk; exact hno (h3 hm)
    · exact hno ((h2 p hk).missing hm)
  · obtain ⟨e', he', h3, _⟩ := h1 p hk
    rw [he] at he'; cases he'
    exact hno (h3 v hv)
  · exact hno ((h2 p hk).sweep hg).1
  · obtain ⟨_, dv, _, _, hdv, _⟩ := (h2 p hk).sweep hg
    rw [hno] at hdv; cases hdv

example : ∃ st, validateConfig ValEx.check ValEx.params ValEx.schema (ValEx.settings true) = .ok st := ⟨_, rfl⟩

example : ∀ p, NotCoupled (ValEx.settings true) p := ValEx.uncoupled_of_check _ (by decide +kernel)

example : PlainDefaults ValEx.params (ValEx.settings true) := ValEx.defaults_of_check _ _ (by decide +kernel)

/-! ## C99 -/

/-- **C99.**  After an accepted validation a sweep whose range is missing, or any sweep when sweeps are off, has been replaced
by its default; nothing else in the settings has changed. -/
theorem C99_settings (chk : ValueCheck) (params sch s : Cfg) (st : VState) (hp : ParamFile params) (hc : Clean sch) (hs : Clean s)
    (hD : PlainDefaults params s) (h : validateConfig chk params sch s = .ok st) :
    (∀ p dv, IsSwept params p → Replaced s (sweepsOn s) p dv → readAt st.settings p = some dv) ∧
    (∀ q, (∀ p dv, IsSwept params p → Replaced s (sweepsOn s) p dv → Unrelated p q) → readAt st.settings q = readAt s q) := by
  obtain ⟨_, xs, hxs, he⟩ := accepted hp hc hs hD h
  refine ⟨fun p dv hsw hr => ?_, fun q hq => ?_⟩
  · have := he.replaced (p, true) ((hxs p).2 hsw) rfl dv hr []
    rwa [List.append_nil, readAt_nil] at this
  · exact he.frame q fun x hx dv hb hr => hq x.1 dv ((hxs x.1).1 (by rw [← hb]; exact hx)) hr

example : Replaced (ValEx.settings false) (sweepsOn (ValEx.settings false)) [.str "inputs", .str "seed"] (ValEx.num 5) :=
  ⟨rfl, Or.inl rfl⟩

example : (match validateConfig ValEx.check ValEx.params ValEx.schema (ValEx.settings false) with
    | .ok st => readAt st.settings [.str "inputs", .str "seed"]
    | .error _ => none) = some (ValEx.num 5) := rfl

/-- Switching sweeps off is remembered. -/
theorem C99_mode (chk : ValueCheck) (params sch s : Cfg) (st : VState) (hp : ParamFile params) (hc : Clean sch) (hs : Clean s)
    (hD : PlainDefaults params s) (h : validateConfig chk params sch s = .ok st) : st.active = sweepsOn s := by
  obtain ⟨_, xs, _, he⟩ := accepted hp hc hs hD h
  exact he.active

/-! ## C100 -/

theorem params_unrelated {params : Cfg} (hp : ParamFile params) {x y : List Key} (hx : IsPlain params x ∨ IsSwept params x)
    (hy : IsSwept params y) (hne : x ≠ y) : Unrelated y x := by
  obtain ⟨ys, _, _, hpw, hmode, hiff⟩ := hp.rest
  have hym : y ≠ [.str "sweep_mode"] := by rintro rfl; exact mode_notSwept hp hy
  have hy' := (hiff y true).2 ⟨hym, Or.inr ⟨rfl, hy⟩⟩
  by_cases hxm : x = [.str "sweep_mode"]
  · subst hxm; exact (hmode _ hy').symm
  · have hx' : ∃ b, (x, b) ∈ ys := by
      rcases hx with hx | hx
      · exact ⟨false, (hiff x false).2 ⟨hxm, Or.inl ⟨rfl, hx⟩⟩⟩
      · exact ⟨true, (hiff x true).2 ⟨hxm, Or.inr ⟨rfl, hx⟩⟩⟩
    obtain ⟨b, hx'⟩ := hx'
    rcases List.mem_iff_getElem.1 hy' with ⟨i, hi, hiy⟩
    rcases List.mem_iff_getElem.1 hx' with ⟨j, hj, hjx⟩
    rw [List.pairwise_iff_getElem] at hpw
    rcases Nat.lt_trichotomy i j with h | h | h
    · have := hpw i j hi hj h
      rw [hiy, hjx] at this
      exact this
    · subst h
      rw [hiy] at hjx
      exact absurd (Prod.mk.inj hjx).1.symm hne
    · have := hpw j i hj hi h
      rw [hiy, hjx] at this
      exact this.symm

theorem plain_not_swept {params : Cfg} {p : List Key} (h : IsPlain params p) : ¬ IsSwept params p := by
  obtain ⟨_, a, ha⟩ := h
  unfold IsSwept
  rw [readAt_snoc_leaf ha]
  simp

/-- **C100 (sweeps off).**  After an accepted validation with sweeps off, every value that a parameter of the file has passes
the check of its schema entry. -/
theorem C100_checked_partial (chk : ValueCheck) (params sch s : Cfg) (st : VState) (hp : ParamFile params) (hc : Clean sch)
    (hs : Clean s) (hD : PlainDefaults params s) (h : validateConfig chk params sch s = .ok st) (hoff : sweepsOn s = false)
    (p : List Key) (v : Cfg) (hv : readAt st.settings p = some v) :
    (IsPlain params p → ∃ e, readAt sch p = some e ∧ chk e v = .ok) ∧
    (IsSwept params p → ∃ d, readAt sch (p ++ [.str "sweep", .str "default"]) = some d ∧ chk d v = .ok) := by
  obtain ⟨h1, h2⟩ := C98_accepted chk params sch s st hp hc hs hD h
  obtain ⟨h3, h4⟩ := C99_settings chk params sch s st hp hc hs hD h
  rw [hoff] at h2 h3 h4
  constructor
  · intro hpl
    obtain ⟨e, he, hok, _⟩ := h1 p hpl
    refine ⟨e, he, hok v ?_⟩
    rw [← hv, h4 p]
    intro q dv hq _
    exact params_unrelated hp (Or.inl hpl) hq (fun h => plain_not_swept hpl (h ▸ hq))
  · intro hsw
    have hok := h2 p hsw
    cases hg : readAt s (p ++ [.str "sweep"]) with
    | none =>
      refine hok.value v ?_ hg
      rw [← hv, h4 p]
      intro q dv hq hr
      refine params_unrelated hp (Or.inr hsw) hq ?_
      rintro rfl
      have := hr.1
      rw [app2, readAt_prefix_none hg] at this
      cases this
    | some g =>
      obtain ⟨_, dv, d, _, hdv, hd, _, hcase⟩ := hok.sweep (by rw [hg]; rfl)
      rcases hcase with ⟨hx, _⟩ | ⟨_, _, hchk⟩
      · cases hx
      · have := h3 p dv hsw ⟨hdv, Or.inl rfl⟩
        rw [hv] at this
        cases this
        exact ⟨d, hd, hchk rfl⟩

example : sweepsOn (ValEx.settings false) = false := rfl

/-- **C100 (sweeps on).**  With sweeps on, single values are checked, and a sweep with a range has its default and its range
checked; only a sweep without a range is exempt. -/
theorem C100_checked_on_partial (chk : ValueCheck) (params sch s : Cfg) (st : VState) (hp : ParamFile params) (hc : Clean sch)
    (hs : Clean s) (hD : PlainDefaults params s) (h : validateConfig chk params sch s = .ok st) (hon : sweepsOn s = true)
    (p : List Key) (hsw : IsSwept params p) (rv : Cfg) (hrv : readAt s (p ++ [.str "sweep", .str "range"]) = some rv) :
    ∃ dv d r, readAt s (p ++ [.str "sweep", .str "default"]) = some dv ∧
      readAt sch (p ++ [.str "sweep", .str "default"]) = some d ∧ readAt sch (p ++ [.str "sweep", .str "range"]) = some r ∧
      chk d dv = .ok ∧ chk r rv = .ok := by
  obtain ⟨_, h2⟩ := C98_accepted chk params sch s st hp hc hs hD h
  have hg : (readAt s (p ++ [.str "sweep"])).isSome := read_some_of_prefix (r := [.str "range"]) (by
    rw [← app2, hrv]; rfl)
  obtain ⟨_, dv, d, r, hdv, hd, hr, hcase⟩ := (h2 p hsw).sweep hg
  rcases hcase with ⟨_, rv', hrv', h5, h6⟩ | ⟨hx, _⟩
  · rw [hrv] at hrv'
    cases hrv'
    exact ⟨dv, d, r, hdv, hd, hr, h5, h6⟩
  · rw [hon, hrv] at hx
    simp at hx

/-- The full statement is false: with sweeps on, the default of a sweep without a range becomes the value of the parameter
without any check. -/
theorem C100_default_unchecked_false : ∃ (chk : ValueCheck) (params sch s : Cfg) (st : VState) (p : List Key) (d v : Cfg),
    ParamFile params ∧ Clean sch ∧ Clean s ∧ PlainDefaults params s ∧ validateConfig chk params sch s = .ok st ∧
      IsSwept params p ∧ readAt st.settings p = some v ∧ readAt sch (p ++ [.str "sweep", .str "default"]) = some d ∧
      chk d v ≠ .ok :=
  ⟨ValEx.check, ValEx.params, ValEx.schema, ValEx.unranged, _, [.str "inputs", .str "seed"], _, ValEx.txt "five",
    ValEx.params_file, ValEx.schema_clean, ValEx.unranged_clean, ValEx.defaults_of_check _ _ (by decide +kernel), rfl, rfl, rfl, rfl,
    by decide +kernel⟩

/-! ## C101 -/

/-- **C101.**  The sweeps registered by an accepted validation are sweeps of the file that have a range and are not coupled,
under their own name; and every such sweep is registered if no other one has the same name. -/
theorem C101_registered_partial (chk : ValueCheck) (params sch s : Cfg) (st : VState) (hp : ParamFile params) (hc : Clean sch)
    (hs : Clean s) (hD : PlainDefaults params s) (h : validateConfig chk params sch s = .ok st) :
    (∀ n p, st.isolated.lookup n = some p → IsSwept params p ∧ NotCoupled s p ∧
      (readAt s (p ++ [.str "sweep", .str "range"])).isSome ∧ n = sweepName p) ∧
    (∀ p, IsSwept params p → NotCoupled s p → (readAt s (p ++ [.str "sweep", .str "range"])).isSome →
      (∀ q, IsSwept params q → NotCoupled s q → (readAt s (q ++ [.str "sweep", .str "range"])).isSome →
        sweepName q = sweepName p → q = p) →
      st.isolated.lookup (sweepName p) = some p) := by
  obtain ⟨xs, hxs, hgood, hpw, _, hiff⟩ := hp.rest
  obtain ⟨_, h2⟩ := (validate_split chk hp hc hs hxs st).1 h
  have hsw : ∀ p, (p, true) ∈ xs ↔ IsSwept params p := by
    intro p
    rw [hiff]
    constructor
    · rintro ⟨_, ⟨h, _⟩ | ⟨_, h⟩⟩
      · cases h
      · exact h
    · intro h
      exact ⟨by rintro rfl; exact mode_notSwept hp h, Or.inr ⟨rfl, h⟩⟩
  have hD' : ∀ x ∈ xs, x.2 = true → readAt (afterMode s).settings (x.1 ++ [.str "sweep", .str "default", .str "sweep"]) = none := by
    rintro ⟨p, b⟩ hx hb
    simp only at hb
    subst hb
    exact hD p ((hsw p).1 hx)
  constructor
  · intro n p hl
    rcases (visits_ok chk hc xs (afterMode s) st hs hgood hpw hD' h2).2.listed n p hl with h | ⟨h3, h4, h5⟩
    · cases h
    · exact ⟨(hsw p).1 h3, h4.2.1, h4.2.2, h5⟩
  · intro p h3 h4 h5 huniq
    refine visits_registered chk hc xs (afterMode s) st hs hgood hpw hD' h2 (p, true) ((hsw p).2 h3) ⟨rfl, h4, h5⟩ ?_
    rintro ⟨q, b⟩ hq ⟨hb, h6, h7⟩ hname
    simp only at hb
    subst hb
    rw [huniq q ((hsw q).1 hq) h6 h7 hname]

example : (match validateConfig ValEx.check ValEx.params ValEx.schema (ValEx.settings true) with
    | .ok st => st.isolated
    | .error _ => []) = [(.str "seed", [.str "inputs", .str "seed"])] := rfl

/-- The full statement is false: the swept files of two lists are both called `0`, and only one of them is registered. -/
theorem C101_same_name_false : ∃ (chk : ValueCheck) (params sch s : Cfg) (st : VState) (p : List Key),
    ParamFile params ∧ Clean sch ∧ Clean s ∧ PlainDefaults params s ∧ sweepsOn s = true ∧
      validateConfig chk params sch s = .ok st ∧ IsSwept params p ∧ NotCoupled s p ∧
      (readAt s (p ++ [.str "sweep", .str "range"])).isSome ∧ ∀ n, (n, p) ∉ st.isolated := by
  have hout : (validateConfig ValEx.check ValEx.params ValEx.schema (ValEx.listed true)).toOption.map (·.isolated) =
      some [(Key.idx 0, [Key.str "inputs", .str "cells_subset", .idx 0, .str "file"])] := by decide +kernel
  cases hv : validateConfig ValEx.check ValEx.params ValEx.schema (ValEx.listed true) with
  | error e => rw [hv] at hout; cases hout
  | ok st =>
    rw [hv] at hout
    refine ⟨ValEx.check, ValEx.params, ValEx.schema, ValEx.listed true, st,
      [.str "inputs", .str "margins", .idx 0, .str "file"],
      ValEx.params_file, ValEx.schema_clean, ValEx.listed_clean true, ValEx.defaults_of_check _ _ (by decide +kernel),
      by decide +kernel, hv, rfl, ValEx.uncoupled_of_check _ (by decide +kernel) _, by decide +kernel, ?_⟩
    intro n h
    have : st.isolated = _ := Option.some.inj hout
    rw [this] at h
    simp at h

/-! ## C102 -/

/-- **C102.**  Whether a configuration is accepted depends on the parameters of the file only: two settings that agree on them
are both accepted or both not, whatever else they hold. -/
theorem C102_unlisted_ignored (chk : ValueCheck) (params sch s s' : Cfg) (hp : ParamFile params) (hc : Clean sch) (hs : Clean s)
    (hs' : Clean s') (hD : PlainDefaults params s) (hn : ∀ p, IsSwept params p → NotCoupled s p) (ha : AgreeOn params s s') :
    (∃ st, validateConfig chk params sch s = .ok st) ↔ ∃ st, validateConfig chk params sch s' = .ok st := by
  have hD' : PlainDefaults params s' := fun p h => by rw [ha p (Or.inr h)]; exact hD p h
  have hn' : ∀ p, IsSwept params p → NotCoupled s' p := fun p h => (notCoupled_congr (ha p (Or.inr h))).2 (hn p h)
  rw [C98_exact chk params sch s hp hc hs hD hn, C98_exact chk params sch s' hp hc hs' hD' hn']
  have hon : sweepsOn s' = sweepsOn s := by
    unfold sweepsOn
    have := ha _ (Or.inl (mode_isPlain hp)) []
    rw [List.append_nil] at this
    rw [this]
  unfold AllRight
  rw [hon]
  constructor
  · rintro ⟨h1, h2⟩
    exact ⟨fun p h => (plainOk_congr (ha p (Or.inl h))).2 (h1 p h), fun p h => (sweptOk_congr (ha p (Or.inr h))).2 (h2 p h)⟩
  · rintro ⟨h1, h2⟩
    exact ⟨fun p h => (plainOk_congr (ha p (Or.inl h))).1 (h1 p h), fun p h => (sweptOk_congr (ha p (Or.inr h))).1 (h2 p h)⟩

/-- In particular a misspelt key is not reported: the settings hold a key that neither the schema nor the parameter file has,
and are accepted. -/
theorem C102_unknown_key_false : ∃ (chk : ValueCheck) (params sch s : Cfg) (st : VState) (p : List Key),
    ParamFile params ∧ Clean sch ∧ Clean s ∧ validateConfig chk params sch s = .ok st ∧ (readAt s p).isSome ∧
      readAt sch p = none ∧ readAt params p = none :=
  ⟨ValEx.check, ValEx.params, ValEx.schema, ValEx.settings true, _, [.str "inputs", .str "typo"], ValEx.params_file,
    ValEx.schema_clean, ValEx.settings_clean true, rfl, rfl, rfl, rfl⟩

/-- A sweep inside a list element cannot be validated with sweeps off: the settings are rejected. -/
theorem C102_list_sweep_rejected (chk : ValueCheck) (params sch s : Cfg) (hp : ParamFile params) (hc : Clean sch) (hs : Clean s)
    (hD : PlainDefaults params s) (p : List Key) (i : Nat) (hi : Key.idx i ∈ p) (hsw : IsSwept params p)
    (hg : (readAt s (p ++ [.str "sweep"])).isSome)
    (hoff : sweepsOn s = false ∨ readAt s (p ++ [.str "sweep", .str "range"]) = none) :
    ∀ st, validateConfig chk params sch s ≠ .ok st := by
  intro st h
  obtain ⟨_, h2⟩ := C98_accepted chk params sch s st hp hc hs hD h
  obtain ⟨_, dv, d, r, _, _, _, hcase⟩ := (h2 p hsw).sweep hg
  rcases hcase with ⟨hon, rv, hrv, _⟩ | ⟨_, hn, _⟩
  · rcases hoff with hoff | hoff
    · rw [hon] at hoff; cases hoff
    · rw [hrv] at hoff; cases hoff
  · obtain ⟨n, hn⟩ := hn _ hi
    cases hn

example : validateConfig ValEx.check ValEx.params ValEx.schema (ValEx.listed false) = .error .raised := rfl

/-! ## C103 -/

theorem visits_first_failure (chk : ValueCheck) {sch : Cfg} (hc : Clean sch) (p : List Key) (e v : Cfg) :
    ∀ (xs : List (List Key × Bool)) (st : VState),
    Clean st.settings → (∀ x ∈ xs, GoodParam x) → xs.Pairwise (fun x y => Unrelated x.1 y.1) →
    (∀ x ∈ xs, x.2 = true → readAt st.settings (x.1 ++ [.str "sweep", .str "default", .str "sweep"]) = none) →
    (∀ x ∈ xs, x.2 = true → NotCoupled st.settings x.1) →
    (∀ x ∈ xs, x.1 ≠ p → RightAt chk sch st.settings st.active x) → (p, false) ∈ xs → readAt sch p = some e →
    readAt st.settings p = some v → chk e v = .badCheck → visits chk sch xs st = .error .exitZero := by
  intro xs
  induction xs with
  | nil => intro st _ _ _ _ _ _ h; cases h
  | cons x xs ih =>
    intro st hs hg hp hD hn hr hm he hv hbad
    rw [List.pairwise_cons] at hp
    rw [visits]
    by_cases hx : x = (p, false)
    · subst hx
      have hgp := hg (p, false) (by simp)
      have hfail : visit chk sch (p, false) st = .error .exitZero := by
        unfold visit
        rw [if_neg (by simp)]
        unfold visitPlain leafCheck
        have hl' : (p.getLast? == some (.str "sweep")) = false := by simpa using hgp.last
        have hm' : (p.getLast? == some (.str "sweep_mode")) = false := by simpa using hgp.noMode
        simp only [pathGet_clean hc hgp.ends, pathGet_clean hs hgp.ends, he, hv, hl', hm', Option.isNone_some, Bool.and_false,
          Bool.false_and, Bool.false_eq_true, if_false, typeChecks, checkValue, hbad]
        split
        · rename_i h1
          split at h1
          · cases h1; rfl
          · cases h1; rfl
        · rename_i h1
          split at h1 <;> cases h1
      rw [hfail]
    · have hxp : x.1 ≠ p := by
        intro h
        have hm' : (p, false) ∈ xs := by
          rcases List.mem_cons.1 hm with h' | h'
          · exact absurd h'.symm hx
          · exact h'
        exact (hp.1 _ hm').1 (by rw [h])
      have hm' : (p, false) ∈ xs := by
        rcases List.mem_cons.1 hm with h' | h'
        · exact absurd h'.symm hx
        · exact h'
      obtain ⟨st1, hvis⟩ := visit_succeeds chk hc hs (hg x (by simp)) (hD x (by simp)) (hn x (by simp)) (hr x (by simp) hxp)
      obtain ⟨_, heff⟩ := visit_ok chk hc hs (hg x (by simp)) (hD x (by simp)) hvis
      have hsame : ∀ y ∈ xs, ∀ r, readAt st1.settings (y.1 ++ r) = readAt st.settings (y.1 ++ r) :=
        fun y hy r => heff.frame _ fun dv _ _ => (hp.1 y hy).append r
      rw [hvis]
      simp only
      have hpv : readAt st1.settings p = some v := by
        have := hsame _ hm' []
        rw [List.append_nil] at this
        rw [this, hv]
      exact ih st1 heff.clean (fun y hy => hg y (by simp [hy])) hp.2
        (fun y hy hb => by rw [hsame y hy]; exact hD y (by simp [hy]) hb)
        (fun y hy hb => (notCoupled_congr (hsame y hy)).2 (hn y (by simp [hy]) hb))
        (fun y hy hne => by rw [heff.active]; exact (rightAt_congr (hsame y hy)).2 (hr y (by simp [hy]) hne)) hm' he hpv hbad

/-- **C103.**  A single value that fails its check ends the program through `sys.exit()`, with exit status 0, as if all were
well: no exception, no failure status. -/
theorem C103_bad_value_exits_with_zero (chk : ValueCheck) (params sch s : Cfg) (hp : ParamFile params) (hc : Clean sch)
    (hs : Clean s) (hD : PlainDefaults params s) (hn : ∀ p, IsSwept params p → NotCoupled s p) (p : List Key) (e v : Cfg)
    (hpl : IsPlain params p) (hpm : p ≠ [.str "sweep_mode"]) (he : readAt sch p = some e) (hv : readAt s p = some v)
    (hbad : chk e v = .badCheck)
    (hrest : (∀ q, IsPlain params q → q ≠ p → PlainOk chk sch s q) ∧ ∀ q, IsSwept params q → SweptOk chk sch s (sweepsOn s) q) :
    validateConfig chk params sch s = .error .exitZero := by
  obtain ⟨xs, hxs, hgood, hpw, _, hiff⟩ := hp.rest
  have hsw : ∀ x ∈ xs, x.2 = true → IsSwept params x.1 := by
    rintro ⟨q, b⟩ hx hb
    rcases ((hiff q b).1 hx).2 with ⟨h, _⟩ | ⟨_, h⟩
    · rw [show b = true from hb] at h; cases h
    · exact h
  have hdict : params.isDict = true := by obtain ⟨a, es, h⟩ := hp.top; rw [h]; rfl
  rw [validateConfig_eq chk params sch s hp.toParamTree hdict hp.noRootSweep, hxs, visits]
  obtain ⟨e', h1, h2, h3⟩ := hrest.1 _ (mode_isPlain hp) (Ne.symm hpm)
  have hmode : visit chk sch ([.str "sweep_mode"], false) (VState.start s) = .ok (afterMode s) := by
    unfold visit
    rw [if_neg (by simp)]
    refine (visitPlain_iff chk hc hs mode_good.1 mode_good.2.1).2 ⟨⟨e', h1, h2, fun _ => h3⟩, ?_⟩
    unfold plainResult
    rw [if_pos (show [Key.str "sweep_mode"].getLast? = some (.str "sweep_mode") from rfl)]; rfl
  rw [hmode]
  simp only
  refine visits_first_failure chk hc p e v xs (afterMode s) hs hgood hpw (fun x hx hb => hD _ (hsw x hx hb))
    (fun x hx hb => hn _ (hsw x hx hb)) ?_ ((hiff p false).2 ⟨hpm, Or.inl ⟨rfl, hpl⟩⟩) he hv hbad
  rintro ⟨q, b⟩ hx hne
  rcases ((hiff q b).1 hx).2 with ⟨rfl, h⟩ | ⟨rfl, h⟩
  · exact hrest.1 q h hne
  · exact hrest.2 q h

/-- Settings whose worker count is a text. -/
def ValEx.badWorkers : Cfg := ValEx.dict [("sweep_mode", ValEx.yes),
  ("inputs", ValEx.dict [("seed", ValEx.num 3), ("n_workers", ValEx.txt "two")])]

example : validateConfig ValEx.check ValEx.params ValEx.schema ValEx.badWorkers = .error .exitZero := rfl

end GeNSIT
