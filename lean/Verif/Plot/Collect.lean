import Verif.Plot.Model

/-!
# C141: a figure shows every collected record with its own values
-/

namespace GeNSIT

/-- The value of variable `v` in record `m`, if the record has one. -/
def Spec.ownValue {M V : Type} (extract : M → Option (List (String × V))) (v : String) (m : M) : Option V :=
  (extract m).bind fun (u : List (String × V)) => u.lookup v

/-- The value of variable `v` in the last of the records that has one. -/
def Spec.latestValue {M V : Type} (extract : M → Option (List (String × V))) (v : String) (ms : List M) : Option V :=
  (ms.filterMap (Spec.ownValue extract v)).getLast?

open Spec

section
variable {M V : Type}

theorem lookup_recPut (d : List (String × V)) (k k2 : String) (v : V) :
    (recPut d k v).lookup k2 = if k2 = k then some v else d.lookup k2 := by
  induction d with
  | nil =>
    simp only [recPut, List.lookup]
    by_cases h : k2 = k
    · subst h; simp
    · have hb : (k2 == k) = false := by simpa using h
      simp [hb, h]
  | cons e rest ih =>
    obtain ⟨k', v'⟩ := e
    simp only [recPut]
    by_cases h1 : k = k'
    · subst h1
      rw [if_pos rfl]
      by_cases h : k2 = k
      · subst h; simp [List.lookup]
      · have hb : (k2 == k) = false := by simpa using h
        simp [List.lookup, hb, h]
    · rw [if_neg h1]
      simp only [List.lookup]
      by_cases h : k2 = k'
      · subst h; simp [Ne.symm h1]
      · have hb : (k2 == k') = false := by simpa using h
        simp only [hb]; exact ih

theorem recPut_keys (d : List (String × V)) (k : String) (v : V) :
    (recPut d k v).map Prod.fst = if k ∈ d.map Prod.fst then d.map Prod.fst else d.map Prod.fst ++ [k] := by
  induction d with
  | nil => simp [recPut]
  | cons e rest ih =>
    obtain ⟨k', v'⟩ := e
    simp only [recPut]
    by_cases hk : k = k'
    · subst hk; simp
    · rw [if_neg hk]
      simp only [List.map_cons, ih, List.mem_cons, hk, false_or]
      split <;> simp

theorem recPut_nodup {d : List (String × V)} (h : (d.map Prod.fst).Nodup) (k : String) (v : V) :
    ((recPut d k v).map Prod.fst).Nodup := by
  rw [recPut_keys]
  split
  · exact h
  · next hk => exact List.nodup_append.mpr ⟨h, by simp, by
      intro a ha b hb; rw [List.mem_singleton] at hb; subst hb; rintro rfl; exact hk ha⟩

theorem recUpdate_nodup (u : List (String × V)) : ∀ {d : List (String × V)}, (d.map Prod.fst).Nodup →
    ((recUpdate d u).map Prod.fst).Nodup := by
  induction u with
  | nil => intro d h; exact h
  | cons e rest ih => intro d h; exact ih (recPut_nodup h e.1 e.2)

theorem lookup_recUpdate (u : List (String × V)) : ∀ (d : List (String × V)) (k : String), (u.map Prod.fst).Nodup →
    (recUpdate d u).lookup k = (u.lookup k).or (d.lookup k) := by
  induction u with
  | nil => intro d k _; simp [recUpdate]
  | cons e rest ih =>
    intro d k hn
    obtain ⟨k', v'⟩ := e
    simp only [List.map_cons, List.nodup_cons] at hn
    have : recUpdate d ((k', v') :: rest) = recUpdate (recPut d k' v') rest := rfl
    rw [this, ih _ _ hn.2, lookup_recPut]
    simp only [List.lookup]
    by_cases h : k = k'
    · subst h
      have hr : rest.lookup k = none := by
        have := hn.1
        clear ih hn
        induction rest with
        | nil => rfl
        | cons e rest ih2 =>
          obtain ⟨k2, v2⟩ := e
          simp only [List.map_cons, List.mem_cons, not_or] at this
          have hb : (k == k2) = false := by simpa using this.1
          simp only [List.lookup, hb]
          exact ih2 rfl this.2
      simp [hr]
    · have hb : (k == k') = false := by simpa using h
      simp [hb, h]

/-! ### Merging -/

theorem lookup_appendAt (m : List (String × List V)) (k k2 : String) (v : V) :
    (appendAt m k v).lookup k2 = if k2 = k then some ((m.lookup k).getD [] ++ [v]) else m.lookup k2 := by
  induction m with
  | nil =>
    simp only [appendAt, List.lookup]
    by_cases h : k2 = k
    · subst h; simp
    · have hb : (k2 == k) = false := by simpa using h
      simp [hb, h]
  | cons e rest ih =>
    obtain ⟨k', l⟩ := e
    simp only [appendAt]
    by_cases h1 : k = k'
    · subst h1
      rw [if_pos rfl]
      by_cases h : k2 = k
      · subst h; simp [List.lookup]
      · have hb : (k2 == k) = false := by simpa using h
        simp [List.lookup, hb, h]
    · rw [if_neg h1]
      have hb1 : (k == k') = false := by simpa using h1
      simp only [List.lookup, hb1]
      by_cases h : k2 = k'
      · subst h; simp [Ne.symm h1]
      · have hb : (k2 == k') = false := by simpa using h
        simp only [hb]; exact ih

/-- `some l`, or nothing for an empty list. -/
def nonEmpty (l : List V) : Option (List V) := if l.isEmpty then none else some l

theorem lookup_mergeOne (d : List (String × V)) : ∀ (m : List (String × List V)) (k : String) (l : List V),
    (d.map Prod.fst).Nodup → m.lookup k = nonEmpty l →
    (d.foldl (fun (m : List (String × List V)) (e : String × V) => appendAt m e.1 e.2) m).lookup k =
      nonEmpty (l ++ (d.lookup k).toList) := by
  induction d with
  | nil => intro m k l _ h; simpa using h
  | cons e rest ih =>
    intro m k l hn h
    obtain ⟨k', v'⟩ := e
    simp only [List.map_cons, List.nodup_cons] at hn
    simp only [List.foldl_cons]
    by_cases hk : k = k'
    · subst hk
      have h1 : (appendAt m k v').lookup k = nonEmpty (l ++ [v']) := by
        rw [lookup_appendAt, if_pos rfl, h]
        cases l <;> simp [nonEmpty]
      rw [ih _ k (l ++ [v']) hn.2 h1]
      have hr : rest.lookup k = none := by
        have := hn.1
        clear ih hn h1
        induction rest with
        | nil => rfl
        | cons e rest ih2 =>
          obtain ⟨k2, v2⟩ := e
          simp only [List.map_cons, List.mem_cons, not_or] at this
          have hb : (k == k2) = false := by simpa using this.1
          simp only [List.lookup, hb]
          exact ih2 this.2
      simp [hr, List.lookup]
    · have hb : (k == k') = false := by simpa using hk
      have h1 : (appendAt m k' v').lookup k = nonEmpty l := by
        rw [lookup_appendAt, if_neg hk, h]
      rw [ih _ k l hn.2 h1]
      simp [List.lookup, hb]

theorem lookup_merge_aux (ds : List (List (String × V))) : ∀ (m : List (String × List V)) (k : String) (l : List V),
    (∀ d ∈ ds, (d.map Prod.fst).Nodup) → m.lookup k = nonEmpty l →
    (ds.foldl (fun (m : List (String × List V)) (d : List (String × V)) =>
      d.foldl (fun (m : List (String × List V)) (e : String × V) => appendAt m e.1 e.2) m) m).lookup k =
      nonEmpty (l ++ ds.filterMap fun (d : List (String × V)) => d.lookup k) := by
  induction ds with
  | nil => intro m k l _ h; simpa using h
  | cons d rest ih =>
    intro m k l hn h
    simp only [List.foldl_cons]
    have h1 := lookup_mergeOne d m k l (hn d (by simp)) h
    rw [ih _ k _ (fun d' hd' => hn d' (List.mem_cons_of_mem _ hd')) h1]
    cases hx : d.lookup k <;> simp [hx]

theorem lookup_merge (ds : List (List (String × V))) (k : String) (hn : ∀ d ∈ ds, (d.map Prod.fst).Nodup) :
    (mergeRecords ds).lookup k = nonEmpty (ds.filterMap fun (d : List (String × V)) => d.lookup k) := by
  have := lookup_merge_aux ds [] k [] hn rfl
  simpa [mergeRecords] using this

/-! ### Collecting -/

/-- The records of a folder before the first one that cannot be read. -/
def readable (extract : M → Option (List (String × V))) (ms : List M) : List M :=
  ms.takeWhile fun (m : M) => (extract m).isSome

theorem collect_nodup (extract : M → Option (List (String × V))) (ms : List M) : ∀ (d : List (String × V)),
    (d.map Prod.fst).Nodup → (∀ x ∈ (collectFolder extract d ms).1, (x.map Prod.fst).Nodup) := by
  induction ms with
  | nil => intro d _ x hx; simp [collectFolder] at hx
  | cons m rest ih =>
    intro d hd x hx
    simp only [collectFolder] at hx
    cases he : extract m with
    | none => rw [he] at hx; simp at hx
    | some u =>
      rw [he] at hx
      rcases List.mem_cons.mp hx with rfl | hx
      · exact recUpdate_nodup u hd
      · exact ih _ (recUpdate_nodup u hd) x hx

theorem collect_values (extract : M → Option (List (String × V)))
    (hn : ∀ m u, extract m = some u → (u.map Prod.fst).Nodup) (k : String) (ms : List M) :
    ∀ (d : List (String × V)) (before : List M), d.lookup k = latestValue extract k before →
    ((collectFolder extract d ms).1.map fun (x : List (String × V)) => x.lookup k) =
      (List.range (readable extract ms).length).map fun (i : ℕ) =>
        latestValue extract k (before ++ (readable extract ms).take (i + 1)) := by
  induction ms with
  | nil => intro d before _; simp [collectFolder, readable]
  | cons m rest ih =>
    intro d before h
    simp only [collectFolder]
    cases he : extract m with
    | none => simp [readable, he]
    | some u =>
      have hr : readable extract (m :: rest) = m :: readable extract rest := by simp [readable, he]
      have hd : (recUpdate d u).lookup k = latestValue extract k (before ++ [m]) := by
        rw [lookup_recUpdate u d k (hn m u he), h]
        simp only [latestValue, List.filterMap_append]
        have ho : ownValue extract k m = u.lookup k := by simp [ownValue, he]
        cases hx : u.lookup k <;> simp [ho, hx]
      rw [hr]
      simp only [List.map_cons, List.length_cons, List.range_succ_eq_map, List.map_map]
      rw [ih _ (before ++ [m]) hd, hd]
      simp [Function.comp_def]

theorem collect_final (extract : M → Option (List (String × V)))
    (hn : ∀ m u, extract m = some u → (u.map Prod.fst).Nodup) (k : String) (ms : List M) :
    ∀ (d : List (String × V)) (before : List M), d.lookup k = latestValue extract k before →
    ∀ e, (collectFolder extract d ms).2 = some e → e.lookup k = latestValue extract k (before ++ ms) := by
  induction ms with
  | nil => intro d before h e he; simp only [collectFolder, Option.some.injEq] at he; subst he; simpa using h
  | cons m rest ih =>
    intro d before h e he
    simp only [collectFolder] at he
    cases hx : extract m with
    | none => rw [hx] at he; simp at he
    | some u =>
      rw [hx] at he
      have hd : (recUpdate d u).lookup k = latestValue extract k (before ++ [m]) := by
        rw [lookup_recUpdate u d k (hn m u hx), h]
        simp only [latestValue, List.filterMap_append]
        have ho : ownValue extract k m = u.lookup k := by simp [ownValue, hx]
        cases hy : u.lookup k <;> simp [ho, hy]
      have := ih _ (before ++ [m]) hd e he
      simpa using this

theorem takeWhile_all {α : Type} {f : α → Bool} {l : List α} (h : ∀ a ∈ l, f a = true) : l.takeWhile f = l := by
  induction l with
  | nil => rfl
  | cons a rest ih =>
    simp only [List.takeWhile_cons, h a (by simp), if_true]
    rw [ih fun b hb => h b (List.mem_cons_of_mem _ hb)]

theorem range_getElem {α β : Type} (f : α → β) (l : List α) :
    ((List.range l.length).filterMap fun (i : ℕ) => (l[i]?).map f) = l.map f := by
  induction l with
  | nil => rfl
  | cons a rest ih =>
    simp only [List.length_cons, List.range_succ_eq_map, List.filterMap_cons, List.getElem?_cons_zero, Option.map_some,
      List.filterMap_map, List.map_cons, Function.comp_def, List.getElem?_cons_succ]
    rw [ih]

/-! ## C141 -/

/-- What the figure over all folders holds for a variable: for each record of each folder that is read (up to the first
record of a folder that fails), the latest value of the variable within that folder, records without any such value being
skipped. -/
theorem C141_exact (extract : M → Option (List (String × V)))
    (hn : ∀ m u, extract m = some u → (u.map Prod.fst).Nodup) (folders : List (List M)) (v : String) :
    ∃ m, dataPlot false extract folders = [.merged m] ∧
      (m.lookup v).getD [] = folders.flatMap fun (ms : List M) =>
        (List.range (readable extract ms).length).filterMap fun (i : ℕ) =>
          latestValue extract v ((readable extract ms).take (i + 1)) := by
  refine ⟨_, rfl, ?_⟩
  rw [lookup_merge]
  · have hne : ∀ l : List V, (nonEmpty l).getD [] = l := by intro l; cases l <;> simp [nonEmpty]
    rw [hne, List.filterMap_flatMap]
    congr 1
    funext ms
    have := collect_values extract hn v ms [] [] (by simp [latestValue])
    have h2 : ∀ (l : List (List (String × V))), (l.filterMap fun (d : List (String × V)) => d.lookup v) =
        (l.map fun (d : List (String × V)) => d.lookup v).filterMap id := by
      intro l; simp [List.filterMap_map]
    rw [h2, this]
    simp [List.filterMap_map]
  · intro d hd
    obtain ⟨ms, _, hd⟩ := List.mem_flatMap.mp hd
    exact collect_nodup extract ms [] (by simp) d hd

theorem latest_own (extract : M → Option (List (String × V))) (v : String) (ms : List M) (i : ℕ) (m : M)
    (hm : ms[i]? = some m) (x : V) (hx : ownValue extract v m = some x) :
    latestValue extract v (ms.take (i + 1)) = some x := by
  have h : ms.take (i + 1) = ms.take i ++ [m] := by
    rw [List.take_add_one, hm]; rfl
  simp [latestValue, h, List.filterMap_append, hx]

/-- If every record can be read and has a value of the variable, the figure shows the values of all records, in order. -/
theorem C141_all_records_partial (extract : M → Option (List (String × V)))
    (hn : ∀ m u, extract m = some u → (u.map Prod.fst).Nodup) (folders : List (List M)) (v : String) (val : M → V)
    (hval : ∀ ms ∈ folders, ∀ m ∈ ms, ownValue extract v m = some (val m)) :
    ∃ m, dataPlot false extract folders = [.merged m] ∧
      (m.lookup v).getD [] = folders.flatMap fun (ms : List M) => ms.map val := by
  obtain ⟨m, h1, h2⟩ := C141_exact extract hn folders v
  refine ⟨m, h1, ?_⟩
  rw [h2]
  apply List.flatMap_congr
  intro ms hms
  have hr : readable extract ms = ms := by
    apply takeWhile_all
    intro m hm
    have := hval ms hms m hm
    unfold ownValue at this
    cases hx : extract m with
    | none => rw [hx] at this; simp at this
    | some u => rfl
  rw [hr]
  have : ∀ i ∈ List.range ms.length, latestValue extract v (ms.take (i + 1)) = (ms[i]?).map val := by
    intro i hi
    rw [List.mem_range] at hi
    have hm : ms[i]? = some ms[i] := List.getElem?_eq_getElem hi
    rw [latest_own extract v ms i ms[i] hm _ (hval ms hms _ (List.getElem_mem hi)), hm]
    rfl
  rw [List.filterMap_congr this]
  exact range_getElem val ms

/-- Two folders with two and one records. -/
private def exRecords : ℕ → Option (List (String × ℕ)) := fun (m : ℕ) => some [("x", m), ("y", 10 * m)]

example : dataPlot false exRecords [[1, 2], [3]] = [.merged [("x", [1, 2, 3]), ("y", [10, 20, 30])]] := rfl

example : ∃ m, dataPlot false exRecords [[1, 2], [3]] = [.merged m] ∧ (m.lookup "y").getD [] = [10, 20, 30] := by
  refine C141_all_records_partial exRecords ?_ [[1, 2], [3]] "y" (fun (m : ℕ) => 10 * m) ?_
  · intro m u h
    simp only [exRecords, Option.some.injEq] at h
    subst h; simp
  · intro ms _ m _; rfl

/-- A record that lacks a variable gets the value of the previous record of its folder that has one. -/
theorem C141_stale_value (extract : M → Option (List (String × V)))
    (hn : ∀ m u, extract m = some u → (u.map Prod.fst).Nodup) (ms : List M) (m : M) (v : String) (u : List (String × V))
    (hread : ∀ m' ∈ ms, (extract m').isSome) (hu : extract m = some u) (hlack : u.lookup v = none) (x : V)
    (hx : latestValue extract v ms = some x) :
    ∃ r, dataPlot false extract [ms ++ [m]] = [.merged r] ∧ ((r.lookup v).getD []).getLast? = some x := by
  obtain ⟨r, h1, h2⟩ := C141_exact extract hn [ms ++ [m]] v
  refine ⟨r, h1, ?_⟩
  rw [h2]
  have hr : readable extract (ms ++ [m]) = ms ++ [m] := by
    apply takeWhile_all
    intro m' hm'
    rcases List.mem_append.mp hm' with h | h
    · exact hread m' h
    · rw [List.mem_singleton] at h; subst h; rw [hu]; rfl
  have hl : latestValue extract v (ms ++ [m]) = some x := by
    simp only [latestValue, List.filterMap_append] at hx ⊢
    have : ownValue extract v m = none := by simp [ownValue, hu, hlack]
    simp [this, hx]
  have ht : (ms ++ [m]).take (ms.length + 1) = ms ++ [m] := List.take_of_length_le (by simp)
  simp only [List.flatMap_cons, List.flatMap_nil, List.append_nil, hr, List.length_append, List.length_singleton]
  rw [List.range_succ, List.filterMap_append]
  simp [ht, hl]

/-- The second record of a folder has no value of `y`; the value of the first is shown for it. -/
private def exStale : ℕ → Option (List (String × ℕ)) :=
  fun (m : ℕ) => if m = 2 then some [("x", 2)] else some [("x", m), ("y", 10 * m)]

theorem C141_stale_false : dataPlot false exStale [[1, 2]] = [.merged [("x", [1, 2]), ("y", [10, 10])]] := rfl

example : ∃ r, dataPlot false exStale [[1] ++ [2]] = [.merged r] ∧ ((r.lookup "y").getD []).getLast? = some 10 :=
  C141_stale_value exStale
    (by
      intro m u h
      unfold exStale at h
      split at h <;> (simp only [Option.some.injEq] at h; subst h; simp))
    [1] 2 "y" [("x", 2)] (by intro m hm; rw [List.mem_singleton] at hm; subst hm; rfl) rfl rfl 10 rfl

/-- If the record without the value comes first in its folder, it is skipped: the lists of the variables are no longer
aligned, and the later values are shown with the wrong records. -/
theorem C141_misaligned_false :
    dataPlot false exStale [[2, 1, 3]] = [.merged [("x", [2, 1, 3]), ("y", [10, 30])]] := rfl

/-- With `by_experiment` there is one figure per folder that can be read, and it shows only one value per variable: the
latest of the folder. -/
theorem C141_by_experiment (extract : M → Option (List (String × V)))
    (hn : ∀ m u, extract m = some u → (u.map Prod.fst).Nodup) (ms : List M) (hread : ∀ m ∈ ms, (extract m).isSome) :
    ∃ d, dataPlot true extract [ms] = [.single d] ∧ ∀ v, d.lookup v = latestValue extract v ms := by
  have hs : ∀ (ms : List M) (d : List (String × V)), (∀ m ∈ ms, (extract m).isSome) →
      ∃ e, (collectFolder extract d ms).2 = some e := by
    intro ms
    induction ms with
    | nil => intro d _; exact ⟨d, rfl⟩
    | cons m rest ih =>
      intro d h
      obtain ⟨u, hu⟩ := Option.isSome_iff_exists.mp (h m (by simp))
      simp only [collectFolder, hu]
      exact ih _ (fun m' hm' => h m' (List.mem_cons_of_mem _ hm'))
  obtain ⟨e, he⟩ := hs ms [] hread
  refine ⟨e, ?_, ?_⟩
  · simp [dataPlot, he]
  · intro v
    have := collect_final extract hn v ms [] [] (by simp [latestValue]) e he
    simpa using this

/-- Two different folders with the same last record give the same figure. -/
theorem C141_by_experiment_false :
    dataPlot true exRecords [[1, 2, 3]] = dataPlot true exRecords [[7, 3]] ∧
      dataPlot true exRecords [[1, 2, 3]] = [.single [("x", 3), ("y", 30)]] := ⟨rfl, rfl⟩

/-- A folder whose second record fails still contributes its first record to the common figure. -/
theorem C141_failed_folder_false :
    dataPlot false (fun (m : ℕ) => if m = 2 then none else some [("x", m)]) [[1, 2, 3], [4]] =
      [.merged [("x", [1, 4])]] := rfl

end

end GeNSIT
