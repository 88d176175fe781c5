import Verif.Outputs.Lemmas

/-!
# Properties of outputs: C49 – C54
-/

set_option linter.unusedSimpArgs false
set_option linter.unusedVariables false

namespace GeNSIT

open Spec

/-! ## C49 -/

/-- The kept positions for burn-in `b`, thinning `k` and trimming `m`: increasing, and exactly `b, b+k, b+2k, …` below the
total, the first `m` of them. -/
theorem C49_indices (b k : Nat) (hk : 0 < k) (m : Option Nat) (total : Nat) :
    (sliceIndices b k m total).Pairwise (· < ·) ∧
    ∀ i, i ∈ sliceIndices b k m total ↔ b ≤ i ∧ i < total ∧ k ∣ i - b ∧ ∀ m', m = some m' → (i - b) / k < m' := by
  obtain ⟨n, h1, h2⟩ := sliceIndices_eq b k m total
  rw [h1]
  refine ⟨?_, fun i => ?_⟩
  · rw [List.pairwise_map]
    refine List.Pairwise.imp ?_ List.pairwise_lt_range
    intro i j hij
    have := Nat.mul_lt_mul_of_pos_left hij hk
    omega
  · simp only [List.mem_map, List.mem_range, h2]
    constructor
    · rintro ⟨j, ⟨h3, h4⟩, rfl⟩
      obtain ⟨a1, a2, a3⟩ := (sliceAll_mem b k total _ hk).mp ⟨j, h3, rfl⟩
      refine ⟨a1, a2, a3, fun m' hm' => ?_⟩
      have : b + k * j - b = k * j := by omega
      rw [this, Nat.mul_div_cancel_left _ hk]
      exact h4 m' hm'
    · rintro ⟨a1, a2, a3, a4⟩
      obtain ⟨j, h3, h4⟩ := (sliceAll_mem b k total i hk).mpr ⟨a1, a2, a3⟩
      refine ⟨j, ⟨h3, fun m' hm' => ?_⟩, h4⟩
      have h5 := a4 m' hm'
      rw [← h4] at h5
      have : b + k * j - b = k * j := by omega
      rwa [this, Nat.mul_div_cancel_left _ hk] at h5

example : sliceIndices 10 5 (some 3) 100 = [10, 15, 20] := by decide

/-- One slice on a dimension `d` of a nonempty sample: the coordinates at the kept positions remain along `d`, everything
else is untouched – unless nothing would remain, in which case the sample is returned as it was. -/
theorem C49_one_slice (d : String) (b k : Nat) (hk : 0 < k) (m : Option Nat) (c : Coords) (hnd : (c.map (·.1)).Nodup)
    (hd : d ∈ c.map (·.1)) (hne : ∀ e ∈ c, e.2 ≠ []) :
    ∃ c', sliceLoop [⟨[d], b, k, m⟩] [] c = some c' ∧ c'.map (·.1) = c.map (·.1) ∧
      (∀ d', d' ≠ d → dimCoords d' c' = dimCoords d' c) ∧
      (takeAt (dimCoords d c) (sliceIndices b k m (dimCoords d c).length) ≠ [] →
        dimCoords d c' = takeAt (dimCoords d c) (sliceIndices b k m (dimCoords d c).length)) ∧
      (takeAt (dimCoords d c) (sliceIndices b k m (dimCoords d c).length) = [] → c' = c) := by
  obtain ⟨⟨d0, xs⟩, hmem, hd0⟩ := List.mem_map.mp hd
  simp only at hd0
  subst hd0
  have hxs := dimCoords_of_mem c hnd d0 xs hmem
  have hfil : c.filter (fun e => [d0].contains e.1) = [(d0, xs)] := by
    clear hne hd hxs
    induction c with
    | nil => simp at hmem
    | cons e c ih =>
      simp only [List.map_cons, List.nodup_cons] at hnd
      rcases List.mem_cons.mp hmem with rfl | hm
      · have : c.filter (fun e => [d0].contains e.1) = [] := by
          rw [List.filter_eq_nil_iff]
          intro e' he' hh
          simp only [List.contains_cons, List.contains_nil, Bool.or_false, beq_iff_eq] at hh
          exact hnd.1 (List.mem_map.mpr ⟨e', he', hh⟩)
        simp only [List.filter_cons, this]
        simp
      · have h1 : e.1 ≠ d0 := by
          intro hh
          exact hnd.1 (List.mem_map.mpr ⟨_, hm, hh.symm⟩)
        rw [List.filter_cons, if_neg (by simpa using h1), ih hnd.2 hm]
  have hall : c.all (fun e => !e.2.isEmpty) = true := by
    rw [List.all_eq_true]; intro e he; simpa using hne e he
  rw [hxs]
  by_cases hk0 : takeAt xs (sliceIndices b k m xs.length) = []
  · refine ⟨c, ?_, rfl, fun _ _ => rfl, fun h => absurd hk0 h, fun _ => rfl⟩
    have hany : (setDim d0 (takeAt xs (sliceIndices b k m xs.length)) c).any (fun e => e.2.isEmpty) = true := by
      rw [List.any_eq_true]
      refine ⟨(d0, takeAt xs (sliceIndices b k m xs.length)), ?_, by simp [hk0]⟩
      unfold setDim
      exact List.mem_map.mpr ⟨_, hmem, by simp⟩
    simp only [sliceLoop, hfil, if_neg hk.ne', List.contains_nil, Bool.false_eq_true, if_false, hany, if_true, hall]
  · refine ⟨setDim d0 (takeAt xs (sliceIndices b k m xs.length)) c, ?_, setDim_names _ _ _, fun d' h => dimCoords_setDim_ne _ _ _ _ h,
      fun _ => dimCoords_setDim_self _ _ _ (List.mem_map.mpr ⟨_, hmem, rfl⟩), fun h => absurd h hk0⟩
    have hall' : ∀ e ∈ setDim d0 (takeAt xs (sliceIndices b k m xs.length)) c, e.2 ≠ [] := by
      intro e he
      unfold setDim at he
      obtain ⟨e0, he0, rfl⟩ := List.mem_map.mp he
      split
      · exact hk0
      · exact hne e0 he0
    have hany : ¬ (setDim d0 (takeAt xs (sliceIndices b k m xs.length)) c).any (fun e => e.2.isEmpty) = true := by
      rw [List.any_eq_true]
      rintro ⟨e, he, hh⟩
      exact hall' e he (by simpa using hh)
    have hall2 : (setDim d0 (takeAt xs (sliceIndices b k m xs.length)) c).all (fun e => !e.2.isEmpty) = true := by
      rw [List.all_eq_true]; intro e he; simpa using hall' e he
    simp only [sliceLoop, hfil, if_neg hk.ne', List.contains_nil, Bool.false_eq_true, if_false, if_neg hany, hall2, if_true]

example : sliceLoop [⟨["iter"], 1, 2, none⟩] [] [("iter", [1, 2, 3, 4, 5]), ("origin", [7])] = some [("iter", [2, 4]), ("origin", [7])] := by
  decide +kernel
example : sliceLoop [⟨["iter"], 9, 2, none⟩] [] [("iter", [1, 2, 3, 4, 5])] = some [("iter", [1, 2, 3, 4, 5])] := by decide +kernel

/-- Any list of slices: dimensions are kept, and along each of them the coordinates are either the original ones or selected
by one single slice naming that dimension – no dimension is sliced twice. -/
theorem C49_each_dimension_once (slices : List IndexSlice) (c c' : Coords) (hnd : (c.map (·.1)).Nodup)
    (h : sliceLoop slices [] c = some c') :
    c'.map (·.1) = c.map (·.1) ∧
    ∀ d, dimCoords d c' = dimCoords d c ∨ ∃ s ∈ slices, d ∈ s.dims ∧
      dimCoords d c' = takeAt (dimCoords d c) (sliceIndices s.burnin s.thinning s.trimming (dimCoords d c).length) := by
  obtain ⟨h1, h2⟩ := sliceLoop_spec slices [] c c' hnd h
  refine ⟨h1, fun d => ?_⟩
  rcases h2 d with h2 | ⟨_, h2⟩
  · exact Or.inl h2
  · exact Or.inr h2

example : sliceLoop [⟨["iter"], 1, 2, none⟩, ⟨["iter", "seed"], 1, 1, none⟩] [] [("iter", [1, 2, 3, 4, 5])] = some [("iter", [2, 4])] := by
  decide +kernel

/-! ## C50 -/

/-- MCMC experiments: after `N` iterations every dataset that is written at all holds exactly the values written during the
iterations `t ≤ N` with `t ≥ write_start` and `write_every ∣ t`, in order. -/
theorem C50_rows_partial {V : Type} (w : Writer V) (calls : Nat → List (String → Option V)) (d : String) (ht : w.time = 0)
    (hx : w.exporting = true) (hn : d ∈ w.names) (hd : d = "theta" ∨ d ∈ plainSamples) (hr : w.rows d = []) (N : Nat) :
    (w.run calls N).rows d = ((dueTimes w.start w.every N).map fun t => (calls t).filterMap (fun kw => kw d)).flatten :=
  run_rows w calls d ht hx ⟨Or.inr hd, hn⟩ hr N

/-- Hence, for a dataset written once per iteration, one row per due iteration: the number of rows is the number of due
iterations and row `r` is the value of the `r`-th due iteration. -/
theorem C50_one_per_iteration_partial {V : Type} (w : Writer V) (calls : Nat → List (String → Option V)) (value : Nat → V) (d : String)
    (ht : w.time = 0) (hx : w.exporting = true) (hn : d ∈ w.names) (hd : d = "theta" ∨ d ∈ plainSamples) (hr : w.rows d = [])
    (hone : ∀ t, (calls t).filterMap (fun kw => kw d) = [value t]) (N : Nat) :
    (w.run calls N).rows d = (dueTimes w.start w.every N).map value := by
  rw [C50_rows_partial w calls d ht hx hn hd hr N]
  induction dueTimes w.start w.every N with
  | nil => rfl
  | cons t ts ih => rw [List.map_cons, List.flatten_cons, ih, hone]; rfl

/-- Several rows per due iteration when a dataset is written several times per iteration (`theta_steps`, `table_steps`, …). -/
theorem C50_count_partial {V : Type} (w : Writer V) (calls : Nat → List (String → Option V)) (d : String) (ht : w.time = 0)
    (hx : w.exporting = true) (hn : d ∈ w.names) (hd : d = "theta" ∨ d ∈ plainSamples) (hr : w.rows d = []) (N steps : Nat)
    (hs : ∀ t, ((calls t).filterMap (fun kw => kw d)).length = steps) :
    ((w.run calls N).rows d).length = (dueTimes w.start w.every N).length * steps := by
  rw [C50_rows_partial w calls d ht hx hn hd hr N]
  induction dueTimes w.start w.every N with
  | nil => simp
  | cons t ts ih =>
    simp only [List.map_cons, List.flatten_cons, List.length_append, hs, ih, List.length_cons]
    ring

/-- Neural-network experiments: over any number of epochs the rows of a dataset provided at every update are the due ones
among the values of the updates, which happen at the last element of every batch and of the data. -/
theorem C50_epochs_partial {V : Type} (w : Writer V) (batch dataSize : Nat) (value : Nat → Nat → V) (kwargs : Nat → Nat → String → Option V)
    (d : String) (ht : w.time = 0) (hx : w.exporting = true) (hn : d ∈ w.names) (hd : d = "theta" ∨ d ∈ plainSamples)
    (hr : w.rows d = []) (hv : ∀ e t, kwargs e t d = some (value e t)) (E : Nat) :
    (w.epochs batch dataSize kwargs E).rows d = dueValues w.start w.every
      ((List.range E).map fun e => ((List.range dataSize).filter (updatesAt batch dataSize)).map (value e)).flatten := by
  have hl : d ≠ "loss" := by rintro rfl; rcases hd with h | h <;> revert h <;> decide
  have hp : d ≠ "n_processed_steps" := by rintro rfl; rcases hd with h | h <;> revert h <;> decide
  have hfold : ∀ (es : List Nat) (w : Writer V), es.foldl (fun w e => w.epoch batch dataSize (kwargs e)) w =
      ((es.map fun e => (List.range dataSize).map fun t => (t, kwargs e t)).flatten).foldl
        (fun w e => w.updateAndExport batch dataSize e.1 e.2) w := by
    intro es
    induction es with
    | nil => intro w; rfl
    | cons e es ih =>
      intro w
      simp only [List.foldl_cons, List.map_cons, List.flatten_cons, List.foldl_append, ih]
      congr 1
      unfold Writer.epoch
      rw [List.foldl_map]
  unfold Writer.epochs
  rw [hfold, updates_rows batch dataSize d hl hp _ w [] hx ⟨Or.inr hd, hn⟩ ?_ (by simpa using ht) (by simpa [dueValues] using hr)]
  · congr 1
    rw [List.nil_append]
    induction List.range E with
    | nil => rfl
    | cons e es ih =>
      simp only [List.map_cons, List.flatten_cons, List.filter_append, List.filterMap_append, ih]
      congr 1
      rw [List.filter_map, List.filterMap_map]
      have h1 : (fun e => e.2 d) ∘ (fun t => (t, kwargs e t)) = fun t => some (value e t) := by
        funext t; simp [hv]
      rw [h1]
      have h2 : ((fun e : Nat × (String → Option V) => decide (e.1 % batch = 0) || decide (e.1 = dataSize - 1)) ∘ fun t => (t, kwargs e t)) =
          updatesAt batch dataSize := by funext t; rfl
      rw [h2]
      induction (List.range dataSize).filter (updatesAt batch dataSize) with
      | nil => rfl
      | cons a as ih => simp [ih]
  · intro ev hev
    simp only [List.mem_flatten, List.mem_map] at hev
    obtain ⟨l, ⟨e, _, rfl⟩, hm⟩ := hev
    obtain ⟨t, _, rfl⟩ := List.mem_map.mp hm
    simp [hv]

/-- A run meeting the hypotheses: table written once per iteration, every second iteration from the third on. -/
example : ((⟨0, 3, 2, true, ["table"], fun _ => []⟩ : Writer Nat).run (fun t => [fun n => if n = "table" then some (10 * t) else none]) 8).rows "table" =
    [40, 60, 80] := by decide +kernel

/-- "For every dataset alike" fails: in neural-network experiments the loss datasets never receive a row. -/
theorem C50_loss_false {V : Type} (w : Writer V) (batch dataSize : Nat) (kwargs : Nat → Nat → String → Option V) (E : Nat) :
    (w.epochs batch dataSize kwargs E).rows "loss" = w.rows "loss" := by
  have hep : ∀ (w : Writer V) (kw : Nat → String → Option V), (w.epoch batch dataSize kw).rows "loss" = w.rows "loss" := by
    intro w kw
    have := updates_loss batch dataSize ((List.range dataSize).map fun t => (t, kw t)) w
    rwa [List.foldl_map] at this
  unfold Writer.epochs
  induction List.range E generalizing w with
  | nil => rfl
  | cons e es ih => rw [List.foldl_cons, ih, hep]

/-- Nor does any dataset outside the fixed list of names, e.g. `log_target`, which is created but never written. -/
theorem C50_unlisted_false {V : Type} (w : Writer V) (calls : Nat → List (String → Option V)) (d : String)
    (hd : d ≠ "loss" ∧ d ≠ "theta" ∧ d ∉ plainSamples) (N : Nat) : (w.run calls N).rows d = w.rows d := by
  have hw : ∀ (w : Writer V) (kw : String → Option V), (w.writeData kw).rows d = w.rows d := by
    intro w kw
    have hnw : ¬ CanWrite w.names d := by
      rintro ⟨h, _⟩
      rcases h with h | h | h
      · exact hd.1 h
      · exact hd.2.1 h
      · exact hd.2.2 h
    unfold Writer.writeData
    split
    · split
      · simp [writes_of_not_writable w kw d hnw]
      · rfl
    · rfl
  induction N with
  | zero => rfl
  | succ N ih =>
    simp only [Writer.run, Writer.iteration]
    rw [← ih]
    generalize w.run calls N = w'
    induction calls (N + 1) generalizing w' with
    | nil => rfl
    | cons kw ks ih => rw [List.foldl_cons, ih, hw]

example : "log_target" ≠ "loss" ∧ "log_target" ≠ "theta" ∧ "log_target" ∉ plainSamples := by decide

/-! ## C51 -/

/-- When `write_every` divides `write_start` (and that is positive) the time attribute gives, for every stored row, the iteration
at which it was due. -/
theorem C51_time_partial (start every : Nat) (he : 0 < every) (hs : 0 < start) (hd : every ∣ start) (N r t : Nat)
    (h : (dueTimes start every N)[r]? = some t) : attributedTime start every r = t := by
  rw [dueTimes_eq start every he hs hd N] at h
  obtain ⟨hr, h⟩ := List.getElem?_eq_some_iff.mp h
  simpa [attributedTime] using h

example : (dueTimes 4 2 9) = [4, 6, 8] ∧ attributedTime 4 2 1 = 6 := by decide

/-- In every other case the very first stored row is given a wrong iteration. -/
theorem C51_time_false (start every : Nat) (hbad : ¬ every ∣ start ∨ start = 0) (N t : Nat)
    (h : (dueTimes start every N)[0]? = some t) : attributedTime start every 0 ≠ t := by
  have hm : t ∈ dueTimes start every N := List.mem_of_getElem? h
  unfold dueTimes at hm
  simp only [List.mem_filter, List.mem_range', Bool.and_eq_true, decide_eq_true_eq] at hm
  obtain ⟨⟨i, _, hi⟩, h1, h2⟩ := hm
  simp only [attributedTime]
  intro hh
  rcases hbad with hb | hb
  · apply hb
    have : start = t := by omega
    rw [this]; exact h2
  · omega

example : (dueTimes 5 2 9)[0]? = some 6 ∧ attributedTime 5 2 0 = 5 := by decide

/-! ## C52 -/

/-- Without the overwrite flag, no history of writes – complete, skipped or interrupted anywhere – changes a file that exists. -/
theorem C52_never_overwritten (f g : Files) (h : WriteHistory false f g) (path : String) (c : List Char) (hc : f path = some c) :
    g path = some c := by
  induction h with
  | refl => exact hc
  | step g h p pieces fin _ st ih =>
    cases st with
    | skip _ _ => exact ih
    | write k hk hw =>
      unfold Files.set
      split
      · rename_i hp
        subst hp
        rcases hw with hw | hw
        · rw [ih] at hw; simp at hw
        · simp at hw
      · exact ih
    | stop => exact ih

/-- A write that ran to the end leaves a file in place – the new content whenever something was written – and touches no other
file; with the overwrite flag it always installs the new content. -/
theorem C52_leaves_file (path : String) (overwrite : Bool) (pieces : List (List Char)) (f g : Files)
    (h : GuardedWrite path overwrite pieces f g true) :
    (g path).isSome = true ∧ (∀ q, q ≠ path → g q = f q) ∧
    ((f path).isSome = false ∨ overwrite = true → g path = some pieces.flatten) ∧
    ((f path).isSome = true → overwrite = false → g = f) := by
  generalize hfin : true = fin at h
  cases h with
  | skip hs ho =>
    refine ⟨hs, fun _ _ => rfl, ?_, fun _ _ => rfl⟩
    rintro (h | h)
    · rw [hs] at h; simp at h
    · rw [ho] at h; simp at h
  | write k hk hw =>
    have hk' : k = pieces.length := by simpa using hfin.symm
    subst hk'
    refine ⟨by simp [Files.set], fun q hq => by simp [Files.set, hq], fun _ => by simp [Files.set], fun h1 h2 => ?_⟩
    rcases hw with hw | hw
    · rw [h1] at hw; simp at hw
    · rw [h2] at hw; simp at hw
  | stop => simp at hfin

example : GuardedWrite "m.json" false ["{".toList, "}".toList] (fun _ => none) (Files.set (fun _ => none) "m.json" "{}".toList) true :=
  GuardedWrite.write (fun _ => none) 2 (by decide) (Or.inl rfl)

/-- The same guard makes a crash permanent: a write interrupted after `k` pieces leaves the truncated content, and no later
non-overwriting history repairs it. -/
theorem C52_truncated_stays (path : String) (pieces : List (List Char)) (f : Files) (k : Nat) (hk : k ≤ pieces.length)
    (hf : f path = none) :
    ∃ g, GuardedWrite path false pieces f g (decide (k = pieces.length)) ∧ g path = some (pieces.take k).flatten ∧
      ∀ h, WriteHistory false g h → h path = some (pieces.take k).flatten := by
  refine ⟨_, GuardedWrite.write f k hk (Or.inl (by simp [hf])), by simp [Files.set], ?_⟩
  intro h hh
  exact C52_never_overwritten _ h hh path _ (by simp [Files.set])

/-! ## C53 -/

/-- Grouping places every sample in exactly one group, groups are nonempty, and the members of a group agree with its first
member along all shared dimensions (those of the very first sample). -/
theorem C53_partition (sharedDims : List String) (s0 : Sample) (samples : List Sample) :
    (groupSamples sharedDims (s0 :: samples)).flatten.Perm (s0 :: samples) ∧
    (∀ g ∈ groupSamples sharedDims (s0 :: samples), g ≠ []) ∧
    ∀ first rest, (first :: rest) ∈ groupSamples sharedDims (s0 :: samples) → ∀ x ∈ rest, AgreeAlong (sharedOf sharedDims s0) first x := by
  have key : ∀ (todo : List Sample) (done : List Sample) (gs : List (List Sample)), gs.flatten.Perm (s0 :: done) →
      GroupsOk (sharedOf sharedDims s0) gs → (∃ r gs', gs = (s0 :: r) :: gs') →
      (todo.foldl (groupSample sharedDims) gs).flatten.Perm (s0 :: (done ++ todo)) ∧
      GroupsOk (sharedOf sharedDims s0) (todo.foldl (groupSample sharedDims) gs) := by
    intro todo
    induction todo with
    | nil => intro done gs hp hok _; simpa using ⟨hp, hok⟩
    | cons x todo ih =>
      intro done gs hp hok hfirst
      obtain ⟨r, gs', rfl⟩ := hfirst
      rw [List.foldl_cons]
      have hstep : (groupSample sharedDims ((s0 :: r) :: gs') x).flatten.Perm (s0 :: (done ++ [x])) ∧
          GroupsOk (sharedOf sharedDims s0) (groupSample sharedDims ((s0 :: r) :: gs') x) ∧
          ∃ r2 gs2, groupSample sharedDims ((s0 :: r) :: gs') x = (s0 :: r2) :: gs2 := by
        simp only [groupSample]
        split
        · refine ⟨?_, ?_, ⟨r, gs' ++ [[x]], rfl⟩⟩
          · rw [List.flatten_append]
            exact (List.Perm.append_right _ hp).trans (by simp)
          · constructor
            · intro g hg
              rcases List.mem_append.mp hg with hg | hg
              · exact hok.nonempty g hg
              · simp only [List.mem_singleton] at hg; simp [hg]
            · intro a b hab y hy
              rcases List.mem_append.mp hab with hab | hab
              · exact hok.agree a b hab y hy
              · simp only [List.mem_singleton, List.cons.injEq] at hab
                rw [hab.2] at hy; simp at hy
        · refine ⟨?_, joinGroup_ok _ x _ hok, ?_⟩
          · exact (joinGroup_perm _ x _).trans ((List.Perm.append_right _ hp).trans (by simp))
          · simp only [joinGroup]
            split
            · exact ⟨_, _, rfl⟩
            · exact ⟨_, _, rfl⟩
      obtain ⟨h1, h2, h3⟩ := hstep
      have := ih (done ++ [x]) _ h1 h2 h3
      simpa using this
  have h0 : groupSamples sharedDims (s0 :: samples) = samples.foldl (groupSample sharedDims) [[s0]] := rfl
  rw [h0]
  obtain ⟨h1, h2⟩ := key samples [] [[s0]] (by simp) ⟨by simp, by
    intro a b hab
    simp only [List.mem_singleton, List.cons.injEq] at hab
    intro x hx; rw [hab.2] at hx; simp at hx⟩ ⟨[], [], rfl⟩
  exact ⟨by simpa using h1, h2.nonempty, h2.agree⟩

/-- When the first sample has a dimension that need not be shared, first members of different groups disagree along some shared
dimension: samples that could be merged are merged. -/
theorem C53_groups_differ (sharedDims : List String) (s0 : Sample) (samples : List Sample) (hns : ∃ d ∈ s0.dims, d ∉ sharedDims) :
    ((groupSamples sharedDims (s0 :: samples)).filterMap List.head?).Pairwise
      fun a b => ¬ AgreeAlong (sharedOf sharedDims s0) a b := by
  have key : ∀ (todo : List Sample) (gs : List (List Sample)), HeadsApart (sharedOf sharedDims s0) gs → (∃ r gs', gs = (s0 :: r) :: gs') →
      HeadsApart (sharedOf sharedDims s0) (todo.foldl (groupSample sharedDims) gs) := by
    intro todo
    induction todo with
    | nil => intro gs h _; exact h
    | cons x todo ih =>
      intro gs h hfirst
      obtain ⟨r, gs', rfl⟩ := hfirst
      rw [List.foldl_cons]
      have hne : ¬ (s0.dims.filter fun d => !sharedDims.contains d).isEmpty = true := by
        obtain ⟨d, hd1, hd2⟩ := hns
        intro hh
        rw [List.isEmpty_iff, List.filter_eq_nil_iff] at hh
        exact hh d hd1 (by simpa using hd2)
      have e : groupSample sharedDims ((s0 :: r) :: gs') x = joinGroup (sharedOf sharedDims s0) x ((s0 :: r) :: gs') := by
        simp only [groupSample, if_neg hne]; rfl
      rw [e]
      refine ih _ (joinGroup_heads _ x _ h).1 ?_
      simp only [joinGroup]
      split
      · exact ⟨_, _, rfl⟩
      · exact ⟨_, _, rfl⟩
  exact key samples [[s0]] (by simp [HeadsApart]) ⟨[], [], rfl⟩

/-- Two seeds of the same kind are grouped together, a different coordinate opens a new group. -/
example :
    let s (i : Nat) (seed : Int) (xs : List Int) : Sample := ⟨i, ["seed", "iter"], fun k => if k = "seed" then some [seed] else if k = "iter" then some xs else none⟩
    ((groupSamples ["iter"] [s 0 1 [1, 2], s 1 2 [1, 2], s 2 3 [1, 2, 3]]).map fun g => g.map (·.id)) = [[0, 1], [2]] := by decide +kernel

/-! ## C54 -/

/-- For every `store_progress` in `(0,1]` the batch boundaries are non-decreasing and end exactly at `N`. -/
theorem C54_batches (p : ℚ) (hp : 0 < p) (hp1 : p ≤ 1) (N : Nat) :
    (sampleBatches p N).Pairwise (· ≤ ·) ∧ (sampleBatches p N).getLast? = some N := by
  have hk : (1 : ℤ) ≤ ⌊1 / p⌋ := by
    rw [Int.le_floor]
    rw [le_div_iff₀ hp]; simpa using hp1
  have hs0 : (0 : ℤ) ≤ ⌊p * N⌋ := Int.floor_nonneg.mpr (by positivity)
  have hsum : (List.replicate (⌊1 / p⌋).toNat (⌊p * N⌋).toNat).sum ≤ N := by
    rw [List.sum_replicate_nat]
    have h1 : (((⌊1 / p⌋).toNat : ℤ) : ℚ) ≤ 1 / p := by
      rw [Int.toNat_of_nonneg (by omega)]; exact Int.floor_le _
    have h2 : (((⌊p * N⌋).toNat : ℤ) : ℚ) ≤ p * N := by
      rw [Int.toNat_of_nonneg hs0]; exact Int.floor_le _
    have h3 : (((⌊1 / p⌋).toNat : ℤ) : ℚ) * (((⌊p * N⌋).toNat : ℤ) : ℚ) ≤ (1 / p) * (p * N) := by
      apply mul_le_mul h1 h2 (by positivity) (by positivity)
    have h4 : (1 / p) * (p * N) = N := by field_simp
    rw [h4] at h3
    exact_mod_cast h3
  have hlen : (List.replicate (⌊1 / p⌋).toNat (⌊p * N⌋).toNat) ≠ [] := by
    intro h
    have := congrArg List.length h
    simp only [List.length_replicate, List.length_nil] at this
    omega
  unfold sampleBatches
  simp only
  split
  · rename_i hlt
    obtain ⟨h1, h2, h3, h4⟩ := cumsum_spec (List.replicate (⌊1 / p⌋).toNat (⌊p * N⌋).toNat ++ [N - (List.replicate (⌊1 / p⌋).toNat (⌊p * N⌋).toNat).sum]) 0
    refine ⟨h3, ?_⟩
    rw [h4 (by simp)]
    simp only [List.sum_append, List.sum_singleton]
    congr 1
    omega
  · rename_i hlt
    obtain ⟨h1, h2, h3, h4⟩ := cumsum_spec (List.replicate (⌊1 / p⌋).toNat (⌊p * N⌋).toNat) 0
    refine ⟨h3, ?_⟩
    rw [h4 hlen]
    congr 1
    omega

example : sampleBatches (3/10) 100 = [30, 60, 90, 100] := by decide +kernel

end GeNSIT
