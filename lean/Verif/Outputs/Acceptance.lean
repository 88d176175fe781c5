import Verif.Outputs.Names
import Mathlib.Algebra.Order.Ring.Nat

/-!
# Property theorems C173 (acceptance rates) and C174 (storing by the table experiment)

`show_progress` (`experiments.py:766-785`), called at the end of every iteration and once more at the end of the MCMC experiments, on top of the
writer of C50; the loop of `Table_MCMC.run` (`:1930-1964`).
-/

namespace GeNSIT

open Spec

/-- The acceptance datasets looked for (`experiments.py:768-779`), reported as `theta_acceptance`, `log_destination_attraction_acceptance` and
`table_acceptance`.  (The share of positive signs is looked for under `signs`, an attribute no run sets, and losses under a model type no experiment has.) -/
def accNames : List String := ["theta_acc", "log_destination_attraction_acc", "table_acc"]

/-- `int(100*rows.mean())` of 0/1 values, in exact arithmetic; the mean of no rows is not a number and raises. -/
def percentOf (rows : List Bool) : Option Nat :=
  if rows.length = 0 then none else some (100 * rows.count true / rows.length)

/-- `show_progress` (`experiments.py:766-779`): `flag` reads a stored value as accepted or not; datasets exist when samples are exported and the name
is declared (`:522, 616-650`). -/
def showProgress {V : Type} (flag : V → Bool) (w : Writer V) : Option (List (String × Nat)) :=
  if 1 ≤ w.time then
    (accNames.filter fun n => w.exporting && w.names.contains n).mapM fun n => (percentOf ((w.rows n).map flag)).map fun p => (n, p)
  else some []

/-- The iterations of `SIM_MCMC` and `JointTableSIM_MCMC` with the progress shown in each (`experiments.py:1424-1505`, `1666-1785`); `calls i` are the
writes of iteration `i` (the time of the iteration is written after the progress is shown, but is not an acceptance dataset). -/
def runShown {V : Type} (flag : V → Bool) (w : Writer V) (calls : Nat → List (String → Option V)) : Nat → Option (Writer V)
  | 0 => some { w with time := w.time + 1 }
  | N + 1 => (runShown flag w calls N).bind fun u =>
      let u' := (calls (N + 1)).foldl Writer.writeData u
      (showProgress flag u').map fun _ => { u' with time := u'.time + 1 }

/-- A whole run: the iterations and the report at the end (`experiments.py:1508`, `1788`), which goes into the metadata. -/
def runReport {V : Type} (flag : V → Bool) (w : Writer V) (calls : Nat → List (String → Option V)) (N : Nat) : Option (List (String × Nat)) :=
  (runShown flag w calls N).bind (showProgress flag)

/-- The loop of `Table_MCMC` (`experiments.py:1930-1964`): the clock is advanced once before the loop and never in it. -/
def tableLoop {V : Type} (w : Writer V) (calls : Nat → String → Option V) (N : Nat) : Writer V :=
  ((List.range' 1 N).map calls).foldl Writer.writeData { w with time := w.time + 1 }

/-! ### Specification -/

/-- The outcomes of all steps of a kind during iterations 1 to `N`. -/
def Spec.outcomes {V : Type} (flag : V → Bool) (calls : Nat → List (String → Option V)) (n : String) (N : Nat) : List Bool :=
  ((List.range' 1 N).map fun t => ((calls t).filterMap fun kw => kw n).map flag).flatten

/-- `p` is the percentage of `true` in `l`, rounded down. -/
def Spec.IsPercentage (p : Nat) (l : List Bool) : Prop :=
  l ≠ [] ∧ p ≤ 100 ∧ p * l.length ≤ 100 * l.count true ∧ 100 * l.count true < (p + 1) * l.length

/-! ### Lemmas -/

theorem percentOf_some {l : List Bool} {p : Nat} (h : percentOf l = some p) : Spec.IsPercentage p l := by
  unfold percentOf at h
  by_cases h0 : l.length = 0
  · rw [if_pos h0] at h; cases h
  · rw [if_neg h0] at h
    obtain rfl := Option.some.inj h
    have hc : l.count true ≤ l.length := List.count_le_length
    have hp : 0 < l.length := by omega
    refine ⟨fun e => h0 (by simp [e]), ?_, Nat.div_mul_le_self _ _, ?_⟩
    · exact Nat.div_le_of_le_mul (by rw [Nat.mul_comm]; exact Nat.mul_le_mul_right _ hc)
    · have := Nat.lt_mul_div_succ (100 * l.count true) hp
      rwa [Nat.mul_comm l.length] at this

theorem percentOf_isSome (l : List Bool) : (percentOf l).isSome = true ↔ l ≠ [] := by
  unfold percentOf
  by_cases h0 : l.length = 0
  · simp [List.length_eq_zero_iff.1 h0]
  · simp only [if_neg h0, Option.isSome_some, true_iff]
    exact fun e => h0 (by simp [e])

/-- The datasets that exist. -/
theorem showProgress_some {V : Type} (flag : V → Bool) (w : Writer V) (ht : 1 ≤ w.time) (r : List (String × Nat))
    (h : showProgress flag w = some r) (n : String) (p : Nat) :
    (n, p) ∈ r ↔ n ∈ accNames ∧ w.exporting = true ∧ n ∈ w.names ∧ percentOf ((w.rows n).map flag) = some p := by
  unfold showProgress at h
  rw [if_pos ht] at h
  have key : ∀ (L : List String) (r : List (String × Nat)),
      L.mapM (fun n => (percentOf ((w.rows n).map flag)).map fun p => (n, p)) = some r →
      ((n, p) ∈ r ↔ n ∈ L ∧ percentOf ((w.rows n).map flag) = some p) := by
    intro L
    induction L with
    | nil => intro r h; simp at h; simp [h]
    | cons a L ih =>
      intro r h
      rw [List.mapM_cons] at h
      cases ha : percentOf ((w.rows a).map flag) with
      | none => simp [ha] at h
      | some q =>
        cases hr : L.mapM (fun n => (percentOf ((w.rows n).map flag)).map fun p => (n, p)) with
        | none => simp [ha, hr] at h
        | some r' =>
          simp [ha, hr] at h
          subst h
          rw [List.mem_cons, ih r' hr, List.mem_cons]
          constructor
          · rintro (h | h)
            · cases h
              exact ⟨Or.inl rfl, ha⟩
            · exact ⟨Or.inr h.1, h.2⟩
          · rintro ⟨rfl | h, h2⟩
            · left
              rw [ha] at h2
              rw [Option.some.inj h2]
            · exact Or.inr ⟨h, h2⟩
  rw [key _ r h]
  simp [List.mem_filter, and_assoc]

theorem showProgress_isSome {V : Type} (flag : V → Bool) (w : Writer V) (ht : 1 ≤ w.time) :
    (showProgress flag w).isSome = true ↔ ∀ n ∈ accNames, w.exporting = true → n ∈ w.names → w.rows n ≠ [] := by
  unfold showProgress
  rw [if_pos ht]
  have key : ∀ L : List String, (L.mapM (fun n => (percentOf ((w.rows n).map flag)).map fun p => (n, p))).isSome = true ↔
      ∀ n ∈ L, w.rows n ≠ [] := by
    intro L
    induction L with
    | nil => simp
    | cons a L ih =>
      rw [List.mapM_cons]
      have ha := percentOf_isSome ((w.rows a).map flag)
      cases hq : percentOf ((w.rows a).map flag) with
      | none =>
        rw [hq] at ha
        have hn : w.rows a = [] := by simpa using ha
        simp [hn]
      | some q =>
        rw [hq] at ha
        have hn : w.rows a ≠ [] := by simpa using ha
        simp only [Option.map_some, List.mem_cons, forall_eq_or_imp]
        rw [← ih]
        cases hm : L.mapM (fun n => (percentOf ((w.rows n).map flag)).map fun p => (n, p)) with
        | none => simp [hn]
        | some r => simp [hn]
  rw [key]
  simp only [List.mem_filter, Bool.and_eq_true, List.contains_iff_mem]
  exact ⟨fun h n h1 h2 h3 => h n ⟨h1, h2, h3⟩, fun h n h1 => h n h1.1 h1.2.1 h1.2.2⟩

theorem run_shape {V : Type} (w : Writer V) (calls : Nat → List (String → Option V)) (N : Nat) :
    (w.run calls N).exporting = w.exporting ∧ (w.run calls N).names = w.names ∧ (w.run calls N).time = w.time + 1 + N := by
  have fold : ∀ (L : List (String → Option V)) (u : Writer V), (L.foldl Writer.writeData u).exporting = u.exporting ∧
      (L.foldl Writer.writeData u).names = u.names ∧ (L.foldl Writer.writeData u).time = u.time := by
    intro L
    induction L with
    | nil => intro u; exact ⟨rfl, rfl, rfl⟩
    | cons k L ih =>
      intro u
      obtain ⟨h1, h2, h3⟩ := ih (u.writeData k)
      have hu : (u.writeData k).exporting = u.exporting ∧ (u.writeData k).names = u.names ∧ (u.writeData k).time = u.time := by
        unfold Writer.writeData
        split
        · split <;> exact ⟨rfl, rfl, rfl⟩
        · exact ⟨rfl, rfl, rfl⟩
      exact ⟨h1.trans hu.1, h2.trans hu.2.1, h3.trans hu.2.2⟩
  induction N with
  | zero => exact ⟨rfl, rfl, rfl⟩
  | succ N ih =>
    obtain ⟨h1, h2, h3⟩ := fold (calls (N + 1)) (w.run calls N)
    refine ⟨h1.trans ih.1, h2.trans ih.2.1, ?_⟩
    simp only [Writer.run, Writer.iteration, h3, ih.2.2]
    omega

/-- What a completed run stores is what the run without progress messages stores. -/
theorem runShown_eq {V : Type} (flag : V → Bool) (w : Writer V) (calls : Nat → List (String → Option V)) (N : Nat) (u : Writer V)
    (h : runShown flag w calls N = some u) : u = w.run calls N := by
  induction N generalizing u with
  | zero => simp only [runShown, Option.some.injEq] at h; exact h.symm
  | succ N ih =>
    simp only [runShown] at h
    cases hp : runShown flag w calls N with
    | none => rw [hp] at h; cases h
    | some v =>
      rw [hp, Option.bind_some] at h
      cases hs : showProgress flag ((calls (N + 1)).foldl Writer.writeData v) with
      | none => rw [hs] at h; cases h
      | some r =>
        rw [hs, Option.map_some, Option.some.injEq] at h
        rw [← h, ih v hp]
        rfl

theorem runShown_succ {V : Type} (flag : V → Bool) (w : Writer V) (calls : Nat → List (String → Option V)) (N : Nat) :
    runShown flag w calls (N + 1) = some (w.run calls (N + 1)) ↔ runShown flag w calls N = some (w.run calls N) ∧
      ∀ n ∈ accNames, w.exporting = true → n ∈ w.names → (w.run calls (N + 1)).rows n ≠ [] := by
  have hsh := run_shape w calls (N + 1)
  have hu : ∀ n, ((calls (N + 1)).foldl Writer.writeData (w.run calls N)).rows n = (w.run calls (N + 1)).rows n := fun _ => rfl
  have hex : ((calls (N + 1)).foldl Writer.writeData (w.run calls N)).exporting = w.exporting := hsh.1
  have hna : ((calls (N + 1)).foldl Writer.writeData (w.run calls N)).names = w.names := hsh.2.1
  have hti : ((calls (N + 1)).foldl Writer.writeData (w.run calls N)).time + 1 = w.time + 1 + (N + 1) := hsh.2.2
  have hs := showProgress_isSome flag ((calls (N + 1)).foldl Writer.writeData (w.run calls N)) (by omega)
  rw [hex, hna] at hs
  simp only [hu] at hs
  constructor
  · intro h
    cases hp : runShown flag w calls N with
    | none => simp [runShown, hp] at h
    | some v =>
      obtain rfl := runShown_eq flag w calls N v hp
      refine ⟨rfl, hs.1 ?_⟩
      simp only [runShown, hp, Option.bind_some] at h
      cases hq : showProgress flag ((calls (N + 1)).foldl Writer.writeData (w.run calls N)) with
      | none => rw [hq] at h; cases h
      | some r => rfl
  · rintro ⟨h, h2⟩
    obtain ⟨r, hr⟩ := Option.isSome_iff_exists.1 (hs.2 h2)
    simp only [runShown, h, Option.bind_some, hr, Option.map_some]
    rfl

theorem rows_eq {V : Type} (w : Writer V) (calls : Nat → List (String → Option V)) (ht : w.time = 0) (hx : w.exporting = true)
    (n : String) (ha : n ∈ accNames) (hn : n ∈ w.names) (hr : w.rows n = []) (N : Nat) :
    (w.run calls N).rows n = ((dueTimes w.start w.every N).map fun t => (calls t).filterMap (fun kw => kw n)).flatten :=
  C50_rows_partial w calls n ht hx hn (Or.inr (by revert ha; unfold accNames plainSamples; simp; rintro (h | h | h) <;> simp [h])) hr N

theorem dueTimes_one (start every : Nat) : dueTimes start every 1 = if start ≤ 1 ∧ every = 1 then [1] else [] := by
  unfold dueTimes
  by_cases h1 : start ≤ 1 <;> by_cases h2 : every = 1 <;> simp [h1, h2, List.range'_one]

theorem dueTimes_all (start N : Nat) (hs : start ≤ 1) : dueTimes start 1 N = List.range' 1 N := by
  unfold dueTimes
  rw [List.filter_eq_self]
  intro t ht
  have := (List.mem_range'_1.1 ht).1
  simp only [Nat.one_dvd, decide_true, Bool.and_true, decide_eq_true_eq]
  omega

/-! ### C173 -/

/-- **C173, which runs complete.**  A run with acceptance datasets completes exactly when the first iteration is written and takes at least one step of
each kind; otherwise it is aborted at the end of its first iteration. -/
theorem C173_completes_iff {V : Type} (flag : V → Bool) (w : Writer V) (calls : Nat → List (String → Option V)) (ht : w.time = 0)
    (hx : w.exporting = true) (hr : ∀ n, w.rows n = []) (N : Nat) (hN : 0 < N) :
    (runShown flag w calls N).isSome = true ↔ ∀ n ∈ accNames, n ∈ w.names →
      w.start ≤ 1 ∧ w.every = 1 ∧ (calls 1).filterMap (fun kw => kw n) ≠ [] := by
  have first : ∀ n ∈ accNames, n ∈ w.names → ((w.run calls 1).rows n ≠ [] ↔
      w.start ≤ 1 ∧ w.every = 1 ∧ (calls 1).filterMap (fun kw => kw n) ≠ []) := by
    intro n ha hn
    rw [rows_eq w calls ht hx n ha hn (hr n), dueTimes_one]
    by_cases h : w.start ≤ 1 ∧ w.every = 1
    · rw [if_pos h]
      simp [h.1, h.2]
    · rw [if_neg h]
      constructor
      · intro h'; exact absurd rfl h'
      · rintro ⟨h1, h2, _⟩; exact absurd ⟨h1, h2⟩ h
  have some_iff : ∀ K, (runShown flag w calls K).isSome = true ↔ runShown flag w calls K = some (w.run calls K) := by
    intro K
    constructor
    · intro h
      obtain ⟨u, hu⟩ := Option.isSome_iff_exists.1 h
      rw [hu, runShown_eq flag w calls K u hu]
    · intro h; rw [h]; rfl
  rw [some_iff]
  constructor
  · intro h n ha hn
    rw [← first n ha hn]
    have : ∀ K, 0 < K → runShown flag w calls K = some (w.run calls K) → runShown flag w calls 1 = some (w.run calls 1) := by
      intro K
      induction K with
      | zero => intro h; omega
      | succ K ih =>
        intro _ hk
        rcases Nat.eq_zero_or_pos K with rfl | hK
        · exact hk
        · exact ih hK ((runShown_succ flag w calls K).1 hk).1
    exact ((runShown_succ flag w calls 0).1 (this N hN h)).2 n ha hx hn
  · intro h
    have : ∀ K, runShown flag w calls K = some (w.run calls K) := by
      intro K
      induction K with
      | zero => rfl
      | succ K ih =>
        refine (runShown_succ flag w calls K).2 ⟨ih, fun n ha _ hn => ?_⟩
        obtain ⟨h1, h2, h3⟩ := h n ha hn
        rw [rows_eq w calls ht hx n ha hn (hr n), h2, dueTimes_all _ _ h1, List.range'_succ]
        simp [h3]
    exact this N

/-- **C173, what is reported.**  At the end of a completed run every acceptance dataset is reported, as the percentage (rounded down) of accepted
steps among all steps of all iterations; nothing else is reported. -/
theorem C173_reported {V : Type} (flag : V → Bool) (w : Writer V) (calls : Nat → List (String → Option V)) (ht : w.time = 0)
    (hx : w.exporting = true) (hr : ∀ n, w.rows n = []) (N : Nat) (hN : 0 < N) (r : List (String × Nat))
    (h : runReport flag w calls N = some r) :
    (∀ n ∈ accNames, n ∈ w.names → ∃ p, (n, p) ∈ r) ∧
      ∀ n p, (n, p) ∈ r → n ∈ accNames ∧ n ∈ w.names ∧ Spec.IsPercentage p (Spec.outcomes flag calls n N) := by
  unfold runReport at h
  cases hp : runShown flag w calls N with
  | none => rw [hp] at h; cases h
  | some u =>
    rw [hp, Option.bind_some] at h
    obtain rfl := runShown_eq flag w calls N u hp
    have hc := (C173_completes_iff flag w calls ht hx hr N hN).1 (by rw [hp]; rfl)
    obtain ⟨hex, hna, hti⟩ := run_shape w calls N
    have ht1 : 1 ≤ (w.run calls N).time := by omega
    have hrows : ∀ n ∈ accNames, n ∈ w.names → ((w.run calls N).rows n).map flag = Spec.outcomes flag calls n N := by
      intro n ha hn
      obtain ⟨h1, h2, _⟩ := hc n ha hn
      rw [rows_eq w calls ht hx n ha hn (hr n), h2, dueTimes_all _ _ h1, Spec.outcomes, List.map_flatten, List.map_map]
      rfl
    have hmem := showProgress_some flag _ ht1 r h
    rw [hex, hna] at hmem
    constructor
    · intro n ha hn
      have hne := (showProgress_isSome flag _ ht1).1 (by rw [h]; rfl) n ha (by rw [hex]; exact hx) (by rw [hna]; exact hn)
      obtain ⟨p, hp'⟩ := Option.isSome_iff_exists.1 ((percentOf_isSome (((w.run calls N).rows n).map flag)).2 (by simpa using hne))
      exact ⟨p, (hmem n p).2 ⟨ha, hx, hn, hp'⟩⟩
    · intro n p hnp
      obtain ⟨ha, _, hn, hp'⟩ := (hmem n p).1 hnp
      rw [hrows n ha hn] at hp'
      exact ⟨ha, hn, percentOf_some hp'⟩

/-- A writing schedule that skips the first iteration aborts every run of `SIM_MCMC` and `JointTableSIM_MCMC` after one iteration. -/
theorem C173_thinned_aborts {V : Type} (flag : V → Bool) (w : Writer V) (calls : Nat → List (String → Option V)) (ht : w.time = 0)
    (hx : w.exporting = true) (hr : ∀ n, w.rows n = []) (e : String) (he : e = "SIM_MCMC" ∨ e = "JointTableSIM_MCMC")
    (hw : declaredOutputs e = some w.names) (hs : 1 < w.start ∨ 1 < w.every) (N : Nat) (hN : 0 < N) : runReport flag w calls N = none := by
  have hn : "log_destination_attraction_acc" ∈ w.names := by
    rcases he with rfl | rfl
    · rw [declaredOutputs_simMcmc, Option.some.injEq] at hw
      rw [← hw]; simp
    · have h2 : declaredOutputs "JointTableSIM_MCMC" = some ["log_destination_attraction", "theta", "sign", "table", "log_target",
        "compute_time", "table_compute_time", "intensity_compute_time", "theta_acc", "log_destination_attraction_acc", "table_acc"] := rfl
      rw [h2, Option.some.injEq] at hw
      rw [← hw]; simp
  have : runShown flag w calls N = none := by
    rw [← Option.not_isSome_iff_eq_none]
    intro h
    obtain ⟨h1, h2, _⟩ := (C173_completes_iff flag w calls ht hx hr N hN).1 h _ (by simp [accNames]) hn
    omega
  unfold runReport
  rw [this]
  rfl

/-- Without exported samples a run completes and reports nothing. -/
theorem C173_not_exported {V : Type} (flag : V → Bool) (w : Writer V) (calls : Nat → List (String → Option V)) (hx : w.exporting = false)
    (N : Nat) : runReport flag w calls N = some [] := by
  have h : ∀ K, runShown flag w calls K = some (w.run calls K) := by
    intro K
    induction K with
    | zero => rfl
    | succ K ih => exact (runShown_succ flag w calls K).2 ⟨ih, fun n _ h' => by rw [hx] at h'; cases h'⟩
  unfold runReport
  rw [h, Option.bind_some]
  unfold showProgress
  have := (run_shape w calls N).1
  rw [hx] at this
  split
  · simp [this]
  · rfl

/-- `SIM_MCMC` never reports the acceptance rate of its parameters, whatever it does. -/
theorem C173_sim_theta_false {V : Type} (flag : V → Bool) (w : Writer V) (calls : Nat → List (String → Option V)) (ht : w.time = 0)
    (hx : w.exporting = true) (hr : ∀ n, w.rows n = []) (hw : declaredOutputs "SIM_MCMC" = some w.names) (N : Nat) (hN : 0 < N)
    (r : List (String × Nat)) (h : runReport flag w calls N = some r) (p : Nat) : ("theta_acc", p) ∉ r := by
  intro hm
  have := ((C173_reported flag w calls ht hx hr N hN r h).2 _ _ hm).2.1
  rw [declaredOutputs_simMcmc, Option.some.injEq] at hw
  rw [← hw] at this
  revert this
  decide

/-! ### C174 -/

theorem tableLoop_rows {V : Type} (w : Writer V) (calls : Nat → String → Option V) (value : Nat → V) (n : String) (hx : w.exporting = true)
    (hn : n ∈ w.names) (hp : n ∈ plainSamples) (hv : ∀ t, calls t n = some (value t)) (N : Nat) :
    (tableLoop w calls N).rows n = w.rows n ++ if w.start ≤ w.time + 1 ∧ (w.time + 1) % w.every = 0 then (List.range' 1 N).map value else [] := by
  unfold tableLoop
  generalize List.range' 1 N = L
  have : ∀ (L : List Nat) (u : Writer V), u.exporting = true → n ∈ u.names →
      ((L.map calls).foldl Writer.writeData u).rows n = u.rows n ++ if u.start ≤ u.time ∧ u.time % u.every = 0 then L.map value else [] := by
    intro L
    induction L with
    | nil => intro u _ _; split <;> simp
    | cons a L ih =>
      intro u hu hnu
      rw [List.map_cons, List.foldl_cons]
      have hw : u.writes (calls a) n = some (value a) := by
        unfold Writer.writes
        rw [if_pos, hv]
        simp [hnu, hp]
      by_cases hd : u.start ≤ u.time ∧ u.time % u.every = 0
      · have e : u.writeData (calls a) = { u with rows := fun name => match u.writes (calls a) name with
            | some v => u.rows name ++ [v]
            | none => u.rows name } := by
          unfold Writer.writeData
          rw [if_pos hu, if_pos hd]
          rfl
        rw [ih _ (by rw [e]; exact hu) (by rw [e]; exact hnu), e]
        simp only [hw]
        rw [if_pos hd, if_pos hd]
        simp
      · have e : u.writeData (calls a) = u := by
          unfold Writer.writeData
          rw [if_pos hu, if_neg hd]
        rw [e, ih u hu hnu, if_neg hd, if_neg hd]
  exact this L { w with time := w.time + 1 } hx hn

/-- **C174, exact behaviour.**  `Table_MCMC` stores every table when `write_start` and `write_every` are one, and no table at all otherwise. -/
theorem C174_exact {V : Type} (w : Writer V) (calls : Nat → String → Option V) (value : Nat → V) (n : String) (ht : w.time = 0)
    (hx : w.exporting = true) (hn : n ∈ w.names) (hp : n ∈ plainSamples) (hr : w.rows n = []) (hv : ∀ t, calls t n = some (value t)) (N : Nat) :
    (tableLoop w calls N).rows n = if w.start ≤ 1 ∧ w.every = 1 then (List.range' 1 N).map value else [] := by
  rw [tableLoop_rows w calls value n hx hn hp hv N, hr, ht, List.nil_append]
  have : (0 + 1) % w.every = 0 ↔ w.every = 1 := by
    rw [Nat.zero_add, ← Nat.dvd_iff_mod_eq_zero, Nat.dvd_one]
  simp only [Nat.zero_add] at this ⊢
  simp only [this]

/-- It stores on schedule exactly when every iteration is due or none is. -/
theorem C174_on_schedule_iff {V : Type} (w : Writer V) (calls : Nat → String → Option V) (value : Nat → V) (n : String) (ht : w.time = 0)
    (hx : w.exporting = true) (hn : n ∈ w.names) (hp : n ∈ plainSamples) (hr : w.rows n = []) (hv : ∀ t, calls t n = some (value t)) (N : Nat) :
    (tableLoop w calls N).rows n = (dueTimes w.start w.every N).map value ↔
      (w.start ≤ 1 ∧ w.every = 1) ∨ ∀ t, 1 ≤ t → t ≤ N → ¬ (w.start ≤ t ∧ w.every ∣ t) := by
  rw [C174_exact w calls value n ht hx hn hp hr hv]
  by_cases h : w.start ≤ 1 ∧ w.every = 1
  · rw [if_pos h, h.2, dueTimes_all _ _ h.1]
    simp [h.1]
  · rw [if_neg h]
    constructor
    · intro h'
      right
      intro t h1 h2 hd
      have : t ∈ dueTimes w.start w.every N := by
        unfold dueTimes
        rw [List.mem_filter, List.mem_range'_1]
        simp only [Bool.and_eq_true, decide_eq_true_eq]
        exact ⟨⟨h1, by omega⟩, hd⟩
      rw [List.map_eq_nil_iff.1 h'.symm] at this
      cases this
    · rintro (h' | h')
      · exact absurd h' h
      · have : dueTimes w.start w.every N = [] := by
          unfold dueTimes
          rw [List.filter_eq_nil_iff]
          intro t ht'
          have hm := List.mem_range'_1.1 ht'
          simp only [Bool.and_eq_true, decide_eq_true_eq]
          exact h' t hm.1 (by omega)
        rw [this]
        rfl

/-- "The table experiment stores the tables that are due" is false: with every second table asked for, none is stored. -/
theorem C174_false : ∃ (w : Writer Nat) (calls : Nat → String → Option Nat), w.time = 0 ∧ w.start = 1 ∧ w.every = 2 ∧
    declaredOutputs "Table_MCMC" = some w.names ∧ dueTimes w.start w.every 6 = [2, 4, 6] ∧ (∀ t, calls t "table" = some t) ∧
    (tableLoop w calls 6).rows "table" = [] := by
  refine ⟨⟨0, 1, 2, true, ["table", "compute_time"], fun _ => []⟩, fun t _ => some t, rfl, rfl, rfl, rfl, by decide, fun _ => rfl, ?_⟩
  rw [C174_exact _ _ (fun t => t) "table" rfl rfl (by simp) (by simp [plainSamples]) rfl (fun _ => rfl)]
  simp

/-- Two iterations with two parameter steps each, three of four accepted. -/
example : runReport id (⟨0, 1, 1, true, ["theta_acc"], fun _ => []⟩ : Writer Bool)
    (fun t => [fun n => if n = "theta_acc" then some true else none, fun n => if n = "theta_acc" then some (t == 2) else none]) 2 =
    some [("theta_acc", 75)] := by decide +kernel

end GeNSIT
