import Verif.Outputs.Spec
import Mathlib.Data.List.Range
import Mathlib.Data.Int.Basic
import Mathlib.Algebra.Order.Floor.Ring
import Mathlib.Algebra.Order.BigOperators.Group.List
import Mathlib.Tactic.Ring
import Mathlib.Tactic.Linarith
import Mathlib.Tactic.FieldSimp
import Mathlib.Tactic.Positivity

/-!
# Helper lemmas for outputs
-/

set_option linter.unusedSimpArgs false
set_option linter.unusedVariables false

namespace GeNSIT

open Spec

/-! ## Slices -/

theorem sliceAll_mem (b k total i : Nat) (hk : 0 < k) :
    (∃ j, j < (total - b + k - 1) / k ∧ b + k * j = i) ↔ (b ≤ i ∧ i < total ∧ k ∣ i - b) := by
  constructor
  · rintro ⟨j, hj, rfl⟩
    have h1 : (j + 1) * k ≤ total - b + k - 1 := (Nat.le_div_iff_mul_le hk).mp hj
    have h2 : (j + 1) * k = k * j + k := by ring
    have h3 : b + k * j - b = k * j := by omega
    refine ⟨by omega, by omega, ?_⟩
    rw [h3]; exact Dvd.intro _ rfl
  · rintro ⟨h1, h2, j, hj⟩
    refine ⟨j, ?_, by omega⟩
    show j + 1 ≤ _
    rw [Nat.le_div_iff_mul_le hk]
    have : (j + 1) * k = k * j + k := by ring
    omega

theorem sliceIndices_eq (b k : Nat) (m : Option Nat) (total : Nat) :
    ∃ n, sliceIndices b k m total = (List.range n).map (fun j => b + k * j) ∧
      ∀ j, j < n ↔ j < (total - b + k - 1) / k ∧ ∀ m', m = some m' → j < m' := by
  cases m with
  | none => exact ⟨_, rfl, by simp⟩
  | some m' =>
    refine ⟨min m' ((total - b + k - 1) / k), ?_, by simp; omega⟩
    simp only [sliceIndices]
    rw [← List.map_take, List.take_range]

theorem dimCoords_setDim_ne (d d' : String) (xs : List Int) (c : Coords) (h : d' ≠ d) : dimCoords d' (setDim d xs c) = dimCoords d' c := by
  induction c with
  | nil => rfl
  | cons e c ih =>
    unfold dimCoords setDim at *
    simp only [List.map_cons, List.find?_cons]
    by_cases he : e.1 = d
    · have h1 : ¬ d = d' := fun hh => h hh.symm
      have h2 : ¬ e.1 = d' := by rw [he]; exact h1
      simp only [he, if_true, h1, decide_false, h2]
      exact ih
    · by_cases he' : e.1 = d'
      · simp [he, he']
        subst he'
        simp [he]
      · simp only [he, if_false, he', decide_false]
        exact ih

theorem dimCoords_setDim_self (d : String) (xs : List Int) (c : Coords) (h : d ∈ c.map (·.1)) : dimCoords d (setDim d xs c) = xs := by
  induction c with
  | nil => simp at h
  | cons e c ih =>
    unfold dimCoords setDim at *
    simp only [List.map_cons, List.find?_cons]
    by_cases he : e.1 = d
    · simp [he]
    · simp only [he, if_false, decide_false]
      refine ih ?_
      simp only [List.map_cons, List.mem_cons] at h
      rcases h with h | h
      · exact absurd h.symm he
      · exact h

theorem setDim_names (d : String) (xs : List Int) (c : Coords) : (setDim d xs c).map (·.1) = c.map (·.1) := by
  unfold setDim
  rw [List.map_map]
  apply List.map_congr_left
  intro e _
  simp only [Function.comp_apply]
  split <;> simp_all

theorem dimCoords_of_mem (c : Coords) (hnd : (c.map (·.1)).Nodup) (d : String) (xs : List Int) (h : (d, xs) ∈ c) : dimCoords d c = xs := by
  induction c with
  | nil => simp at h
  | cons e c ih =>
    simp only [List.map_cons, List.nodup_cons] at hnd
    unfold dimCoords at *
    simp only [List.find?_cons]
    rcases List.mem_cons.mp h with rfl | h
    · simp
    · have : e.1 ≠ d := by
        rintro rfl
        exact hnd.1 (List.mem_map.mpr ⟨_, h, rfl⟩)
      simp only [this, decide_false]
      exact ih hnd.2 h

/-- What the slice loop can have done to every dimension. -/
theorem sliceLoop_spec (slices : List IndexSlice) : ∀ (sliced : List String) (c c' : Coords), (c.map (·.1)).Nodup →
    sliceLoop slices sliced c = some c' →
    c'.map (·.1) = c.map (·.1) ∧
    (∀ d, dimCoords d c' = dimCoords d c ∨ (d ∉ sliced ∧ ∃ s ∈ slices, d ∈ s.dims ∧
      dimCoords d c' = takeAt (dimCoords d c) (sliceIndices s.burnin s.thinning s.trimming (dimCoords d c).length))) := by
  induction slices with
  | nil =>
    intro sliced c c' _ h
    simp only [sliceLoop, Option.ite_none_right_eq_some, Option.some.injEq] at h
    obtain ⟨_, rfl⟩ := h
    exact ⟨rfl, fun d => Or.inl rfl⟩
  | cons s ss ih =>
    intro sliced c c' hnd h
    have lift : ∀ sliced' c'', (c''.map (·.1)) = c.map (·.1) → sliceLoop ss sliced' c'' = some c' → sliced' = sliced → c'' = c →
        c'.map (·.1) = c.map (·.1) ∧
        (∀ d, dimCoords d c' = dimCoords d c ∨ (d ∉ sliced ∧ ∃ s' ∈ s :: ss, d ∈ s'.dims ∧
          dimCoords d c' = takeAt (dimCoords d c) (sliceIndices s'.burnin s'.thinning s'.trimming (dimCoords d c).length))) := by
      intro sliced' c'' _ h9 e1 e2
      rw [e1, e2] at h9
      obtain ⟨h1, h2⟩ := ih _ _ _ hnd h9
      refine ⟨h1, fun d => ?_⟩
      rcases h2 d with h2 | ⟨h2, s', hs', h3⟩
      · exact Or.inl h2
      · exact Or.inr ⟨h2, s', by simp [hs'], h3⟩
    rw [sliceLoop] at h
    split at h
    · exact lift _ _ rfl h rfl rfl
    · rename_i d xs hf
      have hmem : (d, xs) ∈ c.filter (fun e => s.dims.contains e.1) := by rw [hf]; simp
      have hmemc := (List.mem_filter.mp hmem).1
      have hdims : d ∈ s.dims := by simpa using (List.mem_filter.mp hmem).2
      have hxs := dimCoords_of_mem c hnd d xs hmemc
      split at h
      · simp at h
      · split at h
        · exact lift _ _ rfl h rfl rfl
        · rename_i hns
          simp only at h
          split at h
          · exact lift _ _ rfl h rfl rfl
          · obtain ⟨h1, h2⟩ := ih _ _ _ (by rw [setDim_names]; exact hnd) h
            refine ⟨by rw [h1, setDim_names], fun d' => ?_⟩
            by_cases hd : d' = d
            · subst hd
              rcases h2 d' with h2 | ⟨h2, _⟩
              · right
                refine ⟨by simpa using hns, s, by simp, hdims, ?_⟩
                rw [h2, dimCoords_setDim_self _ _ _ (List.mem_map.mpr ⟨_, hmemc, rfl⟩), hxs]
              · simp at h2
            · rcases h2 d' with h2 | ⟨h2, s', hs', h3, h4⟩
              · left; rw [h2, dimCoords_setDim_ne _ _ _ _ hd]
              · right
                rw [dimCoords_setDim_ne _ _ _ _ hd] at h4
                refine ⟨?_, s', by simp [hs'], h3, h4⟩
                simp only [List.mem_cons, not_or] at h2
                exact h2.2
    · simp at h

/-! ## Schedule -/

theorem range'_succ_last (s n : Nat) : List.range' s (n + 1) = List.range' s n ++ [s + n] := by
  have := List.range'_concat (s := s) (n := n) (step := 1)
  simpa using this

theorem dueTimes_succ (start every N : Nat) :
    dueTimes start every (N + 1) = dueTimes start every N ++ (if start ≤ N + 1 ∧ every ∣ N + 1 then [N + 1] else []) := by
  unfold dueTimes
  rw [range'_succ_last, List.filter_append]
  congr 1
  rw [Nat.add_comm 1 N]
  by_cases h1 : start ≤ N + 1 <;> by_cases h2 : every ∣ N + 1 <;> simp [h1, h2]

theorem writeData_fields {V : Type} (w : Writer V) (kw : String → Option V) :
    (w.writeData kw).time = w.time ∧ (w.writeData kw).start = w.start ∧ (w.writeData kw).every = w.every ∧
    (w.writeData kw).exporting = w.exporting ∧ (w.writeData kw).names = w.names := by
  unfold Writer.writeData
  split
  · split <;> simp
  · simp

theorem foldl_writeData_fields {V : Type} (calls : List (String → Option V)) : ∀ (w : Writer V),
    (calls.foldl Writer.writeData w).time = w.time ∧ (calls.foldl Writer.writeData w).start = w.start ∧
    (calls.foldl Writer.writeData w).every = w.every ∧ (calls.foldl Writer.writeData w).exporting = w.exporting ∧
    (calls.foldl Writer.writeData w).names = w.names := by
  induction calls with
  | nil => intro w; simp
  | cons kw calls ih =>
    intro w
    simp only [List.foldl_cons]
    obtain ⟨h1, h2, h3, h4, h5⟩ := ih (w.writeData kw)
    obtain ⟨g1, g2, g3, g4, g5⟩ := writeData_fields w kw
    exact ⟨h1.trans g1, h2.trans g2, h3.trans g3, h4.trans g4, h5.trans g5⟩

/-- A dataset `write_data` can extend. -/
def CanWrite (names : List String) (d : String) : Prop := (d = "loss" ∨ d = "theta" ∨ d ∈ plainSamples) ∧ d ∈ names

theorem writes_of_writable {V : Type} (w : Writer V) (kw : String → Option V) (d : String) (h : CanWrite w.names d) :
    w.writes kw d = kw d := by
  unfold Writer.writes
  rw [if_pos]
  obtain ⟨h1, h2⟩ := h
  rcases h1 with h1 | h1 | h1 <;> simp [h1, h2]
  · subst h1; exact h2
  · subst h1; exact h2

theorem writes_of_not_writable {V : Type} (w : Writer V) (kw : String → Option V) (d : String) (h : ¬ CanWrite w.names d) :
    w.writes kw d = none := by
  unfold Writer.writes
  rw [if_neg]
  intro hh
  apply h
  simp only [Bool.and_eq_true, Bool.or_eq_true, beq_iff_eq, List.contains_iff_mem] at hh
  refine ⟨?_, hh.2⟩
  rcases hh.1 with (h1 | h1) | h1
  · exact Or.inl h1
  · exact Or.inr (Or.inl h1)
  · exact Or.inr (Or.inr h1)

theorem writeData_rows {V : Type} (w : Writer V) (kw : String → Option V) (d : String) (hx : w.exporting = true) (hd : CanWrite w.names d) :
    (w.writeData kw).rows d = w.rows d ++ (if w.start ≤ w.time ∧ w.every ∣ w.time then (kw d).toList else []) := by
  unfold Writer.writeData
  rw [if_pos hx]
  by_cases h : w.start ≤ w.time ∧ w.time % w.every = 0
  · rw [if_pos h, if_pos ⟨h.1, Nat.dvd_of_mod_eq_zero h.2⟩]
    simp only [writes_of_writable w kw d hd]
    cases kw d <;> simp
  · rw [if_neg h, if_neg]
    · simp
    · rintro ⟨h1, h2⟩; exact h ⟨h1, Nat.mod_eq_zero_of_dvd h2⟩

theorem foldl_writeData_rows {V : Type} (calls : List (String → Option V)) (d : String) : ∀ (w : Writer V), w.exporting = true →
    CanWrite w.names d → (calls.foldl Writer.writeData w).rows d =
      w.rows d ++ (if w.start ≤ w.time ∧ w.every ∣ w.time then calls.filterMap (fun kw => kw d) else []) := by
  induction calls with
  | nil => intro w _ _; simp
  | cons kw calls ih =>
    intro w hx hd
    obtain ⟨g1, g2, g3, g4, g5⟩ := writeData_fields w kw
    rw [List.foldl_cons, ih (w.writeData kw) (g4.trans hx) (by rw [g5]; exact hd), g1, g2, g3, writeData_rows w kw d hx hd]
    split
    · cases h : kw d <;> simp [h]
    · simp

theorem run_fields {V : Type} (w : Writer V) (calls : Nat → List (String → Option V)) (N : Nat) :
    (w.run calls N).time = w.time + 1 + N ∧ (w.run calls N).start = w.start ∧ (w.run calls N).every = w.every ∧
    (w.run calls N).exporting = w.exporting ∧ (w.run calls N).names = w.names := by
  induction N with
  | zero => simp [Writer.run]
  | succ N ih =>
    obtain ⟨h1, h2, h3, h4, h5⟩ := ih
    obtain ⟨g1, g2, g3, g4, g5⟩ := foldl_writeData_fields (calls (N + 1)) (w.run calls N)
    simp only [Writer.run, Writer.iteration]
    refine ⟨by rw [g1, h1]; omega, g2.trans h2, g3.trans h3, g4.trans h4, g5.trans h5⟩

theorem run_rows {V : Type} (w : Writer V) (calls : Nat → List (String → Option V)) (d : String) (ht : w.time = 0)
    (hx : w.exporting = true) (hd : CanWrite w.names d) (hr : w.rows d = []) (N : Nat) :
    (w.run calls N).rows d = ((dueTimes w.start w.every N).map fun t => (calls t).filterMap (fun kw => kw d)).flatten := by
  induction N with
  | zero => simp [Writer.run, dueTimes, hr]
  | succ N ih =>
    obtain ⟨h1, h2, h3, h4, h5⟩ := run_fields w calls N
    simp only [Writer.run, Writer.iteration]
    rw [foldl_writeData_rows _ d _ (h4.trans hx) (by rw [h5]; exact hd), ih, h1, h2, h3, ht, dueTimes_succ]
    have : 0 + 1 + N = N + 1 := by omega
    rw [this, List.map_append, List.flatten_append]
    congr 1
    split <;> simp

/-- A dataset that no call ever provides, or that is not writable, stays as it is. -/
theorem updateAndExport_rows {V : Type} (w : Writer V) (batch dataSize t : Nat) (kw : String → Option V) (d : String)
    (hx : w.exporting = true) (hd : CanWrite w.names d) (hl : d ≠ "loss") (hp : d ≠ "n_processed_steps") :
    (w.updateAndExport batch dataSize t kw).rows d = w.rows d ++
      (if t % batch = 0 ∨ t = dataSize - 1 then (if w.start ≤ w.time + 1 ∧ w.every ∣ w.time + 1 then (kw d).toList else []) else []) ∧
    (w.updateAndExport batch dataSize t kw).time = w.time + (if t % batch = 0 ∨ t = dataSize - 1 then 1 else 0) ∧
    (w.updateAndExport batch dataSize t kw).start = w.start ∧ (w.updateAndExport batch dataSize t kw).every = w.every ∧
    (w.updateAndExport batch dataSize t kw).exporting = w.exporting ∧ (w.updateAndExport batch dataSize t kw).names = w.names := by
  unfold Writer.updateAndExport
  by_cases h : t % batch = 0 ∨ t = dataSize - 1
  · simp only [if_pos h]
    obtain ⟨g1, g2, g3, g4, g5⟩ := writeData_fields { w with time := w.time + 1 } (fun name => if name = "loss" ∨ name = "n_processed_steps" then none else kw name)
    refine ⟨?_, g1, g2, g3, g4, g5⟩
    rw [writeData_rows { w with time := w.time + 1 } _ d hx hd]
    simp [hl, hp]
  · simp [if_neg h]

/-- Everything but the rows after an update. -/
theorem updateAndExport_fields {V : Type} (w : Writer V) (batch dataSize t : Nat) (kw : String → Option V) :
    (w.updateAndExport batch dataSize t kw).start = w.start ∧ (w.updateAndExport batch dataSize t kw).every = w.every ∧
    (w.updateAndExport batch dataSize t kw).exporting = w.exporting ∧ (w.updateAndExport batch dataSize t kw).names = w.names ∧
    (w.updateAndExport batch dataSize t kw).rows "loss" = w.rows "loss" := by
  unfold Writer.updateAndExport
  split
  · refine ⟨(writeData_fields _ _).2.1, (writeData_fields _ _).2.2.1, (writeData_fields _ _).2.2.2.1, (writeData_fields _ _).2.2.2.2, ?_⟩
    unfold Writer.writeData Writer.writes
    split
    · split
      · simp
      · rfl
    · rfl
  · exact ⟨rfl, rfl, rfl, rfl, rfl⟩

theorem dueValues_concat {V : Type} (start every : Nat) (vals : List V) (v : V) :
    dueValues start every (vals ++ [v]) =
      dueValues start every vals ++ (if start ≤ vals.length + 1 ∧ every ∣ vals.length + 1 then [v] else []) := by
  unfold dueValues
  rw [List.zipIdx_append, List.filter_append, List.map_append]
  congr 1
  simp only [List.zipIdx_cons, List.zipIdx_nil]
  rw [Nat.add_comm 1 vals.length]
  by_cases h1 : start ≤ vals.length + 1 <;> by_cases h2 : every ∣ vals.length + 1 <;> simp [h1, h2]

/-- A sequence of updates: the rows of a dataset provided by every call are the due values. -/
theorem updates_rows {V : Type} (batch dataSize : Nat) (d : String) (hl : d ≠ "loss") (hp : d ≠ "n_processed_steps")
    (evs : List (Nat × (String → Option V))) : ∀ (w : Writer V) (vals : List V), w.exporting = true → CanWrite w.names d →
    (∀ e ∈ evs, (e.2 d).isSome = true) → w.time = vals.length → w.rows d = dueValues w.start w.every vals →
    (evs.foldl (fun w e => w.updateAndExport batch dataSize e.1 e.2) w).rows d =
      dueValues w.start w.every (vals ++ (evs.filter fun e => decide (e.1 % batch = 0) || decide (e.1 = dataSize - 1)).filterMap fun e => e.2 d) := by
  induction evs with
  | nil => intro w vals _ _ _ _ hr; simpa using hr
  | cons e evs ih =>
    intro w vals hx hd hs ht hr
    obtain ⟨h1, h2, h3, h4, h5, h6⟩ := updateAndExport_rows w batch dataSize e.1 e.2 d hx hd hl hp
    obtain ⟨v, hv⟩ := Option.isSome_iff_exists.mp (hs e (by simp))
    rw [List.foldl_cons]
    by_cases hu : e.1 % batch = 0 ∨ e.1 = dataSize - 1
    · have hf : (decide (e.1 % batch = 0) || decide (e.1 = dataSize - 1)) = true := by simpa using hu
      rw [ih _ (vals ++ [v]) (h5.trans hx) (by rw [h6]; exact hd) (fun e' he' => hs e' (by simp [he']))
        (by rw [h2, if_pos hu, ht]; simp)
        (by rw [h1, if_pos hu, h3, h4, hr, dueValues_concat, ht, hv]; simp), h3, h4, List.filter_cons, if_pos hf, List.filterMap_cons, hv]
      simp
    · have hf : ¬ (decide (e.1 % batch = 0) || decide (e.1 = dataSize - 1)) = true := by simpa using hu
      rw [ih _ vals (h5.trans hx) (by rw [h6]; exact hd) (fun e' he' => hs e' (by simp [he']))
        (by rw [h2, if_neg hu, ht]; simp)
        (by rw [h1, if_neg hu, h3, h4, hr]; simp), h3, h4, List.filter_cons, if_neg hf]

theorem updates_loss {V : Type} (batch dataSize : Nat) (evs : List (Nat × (String → Option V))) : ∀ (w : Writer V),
    (evs.foldl (fun w e => w.updateAndExport batch dataSize e.1 e.2) w).rows "loss" = w.rows "loss" := by
  induction evs with
  | nil => intro w; rfl
  | cons e evs ih =>
    intro w
    rw [List.foldl_cons, ih, (updateAndExport_fields w batch dataSize e.1 e.2).2.2.2.2]

theorem dueTimes_eq (start every : Nat) (he : 0 < every) (hs : 0 < start) (hd : every ∣ start) (N : Nat) :
    dueTimes start every N = (List.range (if N < start then 0 else (N - start) / every + 1)).map fun r => start + r * every := by
  induction N with
  | zero => simp [dueTimes, hs]
  | succ N ih =>
    rw [dueTimes_succ, ih]
    rcases Nat.lt_trichotomy (N + 1) start with h | h | h
    · rw [if_pos (by omega), if_pos h, if_neg (by omega)]; simp
    · have h1 : start ≤ N + 1 ∧ every ∣ N + 1 := ⟨by omega, by rw [h]; exact hd⟩
      have h2 : N < start := by omega
      have h3 : ¬ N + 1 < start := by omega
      rw [if_pos h2, if_neg h3, if_pos h1, h]; simp
    · have hN : ¬ N < start := by omega
      have hN1 : ¬ N + 1 < start := by omega
      rw [if_neg hN, if_neg hN1]
      have e1 : N + 1 - start = (N - start) + 1 := by omega
      have hiff : every ∣ N + 1 ↔ every ∣ (N - start) + 1 := by
        have : N + 1 = start + ((N - start) + 1) := by omega
        rw [this]; exact (Nat.dvd_add_right hd)
      rw [e1, Nat.succ_div]
      by_cases h2 : every ∣ (N - start) + 1
      · have h3 : start ≤ N + 1 ∧ every ∣ N + 1 := ⟨by omega, hiff.mpr h2⟩
        rw [if_pos h2, if_pos h3, List.range_succ (n := (N - start) / every + 1), List.map_append]
        congr 1
        simp only [List.map_cons, List.map_nil, List.cons.injEq, and_true]
        obtain ⟨q, hq⟩ := h2
        have h4 : ((N - start) / every + 1) = q := by
          have := Nat.succ_div (a := N - start) (b := every)
          rw [if_pos ⟨q, hq⟩, hq, Nat.mul_div_cancel_left _ he] at this
          exact this.symm
        rw [h4, Nat.mul_comm q every, ← hq]; omega
      · have h3 : ¬ (start ≤ N + 1 ∧ every ∣ N + 1) := fun hh => h2 (hiff.mp hh.2)
        rw [if_neg h2, if_neg h3]; simp

/-! ## Grouping -/

theorem sameValues_iff (a b : List Int) : sameValues a b = true ↔ ∀ z, z ∈ a ↔ z ∈ b := by
  unfold sameValues
  simp only [Bool.and_eq_true, List.all_eq_true, List.contains_iff_mem]
  constructor
  · rintro ⟨h1, h2⟩ z; exact ⟨h1 z, h2 z⟩
  · intro h; exact ⟨fun z hz => (h z).mp hz, fun z hz => (h z).mpr hz⟩

theorem matchesGroup_iff (shared : List String) (a b : Sample) : matchesGroup shared a b = true ↔ AgreeAlong shared a b := by
  unfold matchesGroup AgreeAlong
  rw [List.all_eq_true]
  constructor
  · intro h k hk
    have := h k hk
    split at this
    · rename_i xs ys h1 h2
      exact ⟨xs, ys, h1, h2, (sameValues_iff xs ys).mp this⟩
    · simp at this
  · intro h k hk
    obtain ⟨xs, ys, h1, h2, h3⟩ := h k hk
    simp [h1, h2, (sameValues_iff xs ys).mpr h3]

/-- Well-formed groups with respect to fixed shared dimensions. -/
structure GroupsOk (shared : List String) (gs : List (List Sample)) : Prop where
  nonempty : ∀ g ∈ gs, g ≠ []
  agree : ∀ first rest, (first :: rest) ∈ gs → ∀ x ∈ rest, AgreeAlong shared first x

theorem joinGroup_perm (shared : List String) (new : Sample) (gs : List (List Sample)) :
    (joinGroup shared new gs).flatten.Perm (gs.flatten ++ [new]) := by
  induction gs with
  | nil => simp [joinGroup]
  | cons g gs ih =>
    cases g with
    | nil => simpa [joinGroup] using ih
    | cons f r =>
      simp only [joinGroup]
      split
      · simp only [List.flatten_cons, List.append_assoc, List.cons_append]
        exact List.Perm.cons _ (List.Perm.append_left _ (List.perm_append_comm (l₁ := [new])))
      · simp only [List.flatten_cons, List.append_assoc]
        exact List.Perm.append_left _ ih

theorem joinGroup_ok (shared : List String) (new : Sample) (gs : List (List Sample)) (h : GroupsOk shared gs) :
    GroupsOk shared (joinGroup shared new gs) := by
  induction gs with
  | nil => constructor <;> simp [joinGroup]
  | cons g gs ih =>
    have htail : GroupsOk shared gs := ⟨fun g' hg' => h.nonempty g' (by simp [hg']), fun a b hab => h.agree a b (by simp [hab])⟩
    cases g with
    | nil => exact absurd rfl (h.nonempty [] (by simp))
    | cons f r =>
      simp only [joinGroup]
      split
      · rename_i hm
        constructor
        · intro g' hg'
          rcases List.mem_cons.mp hg' with rfl | hg'
          · simp
          · exact htail.nonempty g' hg'
        · intro a b hab x hx
          rcases List.mem_cons.mp hab with hab | hab
          · simp only [List.cons_append, List.cons.injEq] at hab
            obtain ⟨rfl, rfl⟩ := hab
            rcases List.mem_append.mp hx with hx | hx
            · exact h.agree a r (by simp) x hx
            · simp only [List.mem_singleton] at hx; rw [hx]; exact (matchesGroup_iff _ _ _).mp hm
          · exact htail.agree a b hab x hx
      · have := ih htail
        constructor
        · intro g' hg'
          rcases List.mem_cons.mp hg' with rfl | hg'
          · simp
          · exact this.nonempty g' hg'
        · intro a b hab x hx
          rcases List.mem_cons.mp hab with hab | hab
          · exact h.agree a b (by rw [← hab]; simp) x hx
          · exact this.agree a b hab x hx

/-- Heads of different groups disagree. -/
def HeadsApart (shared : List String) (gs : List (List Sample)) : Prop :=
  (gs.filterMap List.head?).Pairwise fun a b => ¬ AgreeAlong shared a b

theorem joinGroup_heads (shared : List String) (new : Sample) (gs : List (List Sample)) (h : HeadsApart shared gs) :
    HeadsApart shared (joinGroup shared new gs) ∧
    (∀ a ∈ (joinGroup shared new gs).filterMap List.head?, a ∈ gs.filterMap List.head? ∨ a = new) := by
  induction gs with
  | nil => simp [joinGroup, HeadsApart]
  | cons g gs ih =>
    cases g with
    | nil =>
      simp only [joinGroup, HeadsApart, List.filterMap_cons, List.head?_nil] at h ⊢
      exact ih h
    | cons f r =>
      simp only [HeadsApart, List.filterMap_cons, List.head?_cons, List.pairwise_cons] at h
      obtain ⟨i1, i2⟩ := ih h.2
      simp only [joinGroup]
      split
      · simp only [HeadsApart, List.filterMap_cons, List.head?_cons, List.cons_append, List.pairwise_cons]
        exact ⟨h, fun a ha => Or.inl ha⟩
      · rename_i hm
        simp only [HeadsApart, List.filterMap_cons, List.head?_cons, List.pairwise_cons]
        refine ⟨⟨?_, i1⟩, ?_⟩
        · intro a ha
          rcases i2 a ha with ha | ha
          · exact h.1 a ha
          · rw [ha]
            intro hh
            exact hm ((matchesGroup_iff _ _ _).mpr hh)
        · intro a ha
          rcases List.mem_cons.mp ha with ha | ha
          · left; simp [ha]
          · rcases i2 a ha with ha | ha
            · left; simp [ha]
            · right; exact ha

/-! ## Batches -/

theorem cumsum_spec (xs : List Nat) : ∀ acc, (cumsum acc xs).length = xs.length ∧ (∀ y ∈ cumsum acc xs, acc ≤ y) ∧
    (cumsum acc xs).Pairwise (· ≤ ·) ∧ (xs ≠ [] → (cumsum acc xs).getLast? = some (acc + xs.sum)) := by
  induction xs with
  | nil => intro acc; simp [cumsum]
  | cons x xs ih =>
    intro acc
    obtain ⟨h1, h2, h3, h4⟩ := ih (acc + x)
    refine ⟨by simp [cumsum, h1], ?_, ?_, ?_⟩
    · intro y hy
      simp only [cumsum, List.mem_cons] at hy
      rcases hy with rfl | hy
      · omega
      · have := h2 y hy; omega
    · simp only [cumsum, List.pairwise_cons]
      exact ⟨h2, h3⟩
    · intro _
      simp only [cumsum, List.sum_cons]
      by_cases hx : xs = []
      · subst hx; simp [cumsum]
      · have hne : cumsum (acc + x) xs ≠ [] := by
          intro h; have := congrArg List.length h; rw [h1] at this; simp at this; exact hx this
        rw [List.getLast?_cons, h4 hx]
        simp; omega

end GeNSIT
