import Verif.Outputs.CacheLemmas

/-!
# The cache of collected samples (C111): properties
-/

set_option linter.unusedSimpArgs false
set_option linter.unusedVariables false

namespace GeNSIT

open Spec

section

variable (shared : SName → List String) (combine : List Sample → Sample)

/-- No second slicing (the setting `slice` is off). -/
abbrev noSlice : SName → Sample → Option Sample := fun _ x => some x

/-- Loading the names from a directory that holds the groups `g`: the general statement. -/
theorem loadSweeps_holds (raw : SName → List Sample) (dir : CacheDir) (g : SName → List Sample) (h : Holds dir fun n => (g n).map some)
    (names : List SName) (hne : names ≠ []) (hnd : names.Nodup) (hsep : ∀ n ∈ names, '>' ∉ n) (hk : ∀ n ∈ names, KeptApart (shared n) (g n))
    (hraw : ∀ n ∈ names, g n = [] → raw n ≠ []) :
    ∃ dir' data, loadSweeps shared combine noSlice raw false (some dir) names = (some dir', .ok data) ∧
      Holds dir' (fun n => if n ∈ names ∧ g n = [] then (freshGroups shared combine raw n).map some else (g n).map some) ∧
      (∀ n ∈ names, data n = some (if g n = [] then freshGroups shared combine raw n else (g n).reverse)) ∧
      ∀ n, n ∉ names → data n = none := by
  obtain ⟨data0, h1, h2⟩ := readCollection_holds shared combine noSlice dir g h names hnd (by simpa [noSlice] using hk)
  simp only [noSlice, List.filterMap_some] at h2
  have hsize : ∀ data : Collected, (∀ n ∈ names, data n = some (if g n = [] then freshGroups shared combine raw n else (g n).reverse)) →
      ¬ (names.all fun n => ((data n).getD []).isEmpty) = true := by
    intro data hd hall
    rw [List.all_eq_true] at hall
    cases hn : names with
    | nil => exact hne hn
    | cons n ns =>
      have hmem : n ∈ names := by rw [hn]; simp
      have := hall n hmem
      rw [hd n hmem, Option.getD_some, List.isEmpty_iff] at this
      split at this
      · rename_i hg
        exact freshGroups_ne_nil shared combine raw n (hraw n hmem hg) this
      · rename_i hg
        exact hg (by simpa using this)
  by_cases hm : (names.filter fun n => (g n).isEmpty).isEmpty = true
  · have hfull : ∀ n ∈ names, g n ≠ [] := by
      intro n hn he
      rw [List.isEmpty_iff, List.filter_eq_nil_iff] at hm
      exact hm n hn (by simp [he])
    have hd : ∀ n ∈ names, data0 n = some (if g n = [] then freshGroups shared combine raw n else (g n).reverse) := by
      intro n hn
      rw [h2 n, if_pos ⟨hn, hfull n hn⟩, if_neg (hfull n hn)]
    refine ⟨dir, data0, ?_, ?_, hd, ?_⟩
    · simp only [loadSweeps, h1, hm, if_true, if_neg (hsize data0 hd)]
    · refine h.congr fun n => ?_
      rw [if_neg]
      rintro ⟨h3, h4⟩
      exact hfull n h3 h4
    · intro n hn
      rw [h2 n, if_neg (fun hh => hn hh.1)]
  · obtain ⟨d, c', e1, e2, e3⟩ := collectMissing_spec shared combine raw (names.filter fun n => (g n).isEmpty) dir data0 (hnd.filter _) (by
      intro n hn
      rw [List.mem_filter, List.isEmpty_iff] at hn
      exact hraw n hn.1 hn.2)
    have hd : ∀ n ∈ names, c' n = some (if g n = [] then freshGroups shared combine raw n else (g n).reverse) := by
      intro n hn
      rw [e3 n]
      by_cases hg : g n = []
      · rw [if_pos (List.mem_filter.mpr ⟨hn, by simp [hg]⟩), if_pos hg]
      · rw [if_neg (fun hh : n ∈ names.filter fun n => (g n).isEmpty => hg (List.isEmpty_iff.mp (List.mem_filter.mp hh).2)), h2 n, if_pos ⟨hn, hg⟩, if_neg hg]
    refine ⟨d, c', ?_, ?_, hd, ?_⟩
    · simp only [loadSweeps, h1, hm, Option.getD_some, e1]
      have := hsize c' hd
      simp only [Bool.not_eq_true] at this
      simp [this]
    · rw [e2]
      have := h.putSamples (freshGroups shared combine raw) (names.filter fun n => (g n).isEmpty) (hnd.filter _)
        (fun n hn => hsep n (List.mem_filter.mp hn).1) (fun n hn => by
          have := (List.mem_filter.mp hn).2
          rw [List.isEmpty_iff] at this
          simp [this])
      refine this.congr fun n => ?_
      simp only [List.mem_filter, List.isEmpty_iff]
    · intro n hn
      rw [e3 n, if_neg (fun hh => hn (List.mem_filter.mp hh).1), h2 n, if_neg (fun hh => hn hh.1)]

/-- Without a cache, or when the reload is forced, every requested sample is collected from the sweeps, and the directory then
holds exactly the collected groups of exactly the requested samples: whatever was stored before is gone. -/
theorem C111_first_load (raw : SName → List Sample) (force : Bool) (old : Option CacheDir) (hold : force = true ∨ old = none)
    (names : List SName) (hne : names ≠ []) (hnd : names.Nodup) (hsep : ∀ n ∈ names, '>' ∉ n) (hraw : ∀ n ∈ names, raw n ≠ []) :
    ∃ dir data, loadSweeps shared combine noSlice raw force old names = (some dir, .ok data) ∧
      Holds dir (fun n => if n ∈ names then (freshGroups shared combine raw n).map some else []) ∧
      ∀ n, data n = if n ∈ names then some (freshGroups shared combine raw n) else none := by
  have h0 : readCollection shared combine noSlice force old names = (none, .ok (fun _ => none, names)) := by
    cases old with
    | none => rfl
    | some d =>
      rcases hold with h | h
      · simp [readCollection, h]
      · cases h
  obtain ⟨d, c', e1, e2, e3⟩ := collectMissing_spec shared combine raw names [] (fun _ => none) hnd hraw
  have hnames : ¬ names.isEmpty = true := by rwa [List.isEmpty_iff]
  have hsize : ¬ (names.all fun n => ((c' n).getD []).isEmpty) = true := by
    intro hall
    rw [List.all_eq_true] at hall
    cases hn : names with
    | nil => exact hne hn
    | cons n ns =>
      have hmem : n ∈ names := by rw [hn]; simp
      have := hall n hmem
      rw [e3 n, if_pos hmem, Option.getD_some, List.isEmpty_iff] at this
      exact freshGroups_ne_nil shared combine raw n (hraw n hmem) this
  refine ⟨d, c', ?_, ?_, e3⟩
  · simp only [loadSweeps, h0, hnames, Option.getD_none, e1]
    simp only [Bool.not_eq_true] at hsize
    simp [hsize]
  · rw [e2]
    have := Spec.Holds.nil.putSamples (freshGroups shared combine raw) names hnd hsep (by simp)
    exact this

/-- With a cache that holds the groups `g`, the requested samples that have files are taken from it – all their groups, but in the
reverse order – and only the others are collected and added to the cache; samples that were not requested are neither loaded nor
changed. -/
theorem C111_cached_load_partial (raw : SName → List Sample) (dir : CacheDir) (g : SName → List Sample) (h : Holds dir fun n => (g n).map some)
    (names : List SName) (hne : names ≠ []) (hnd : names.Nodup) (hsep : ∀ n ∈ names, '>' ∉ n) (hk : ∀ n ∈ names, KeptApart (shared n) (g n))
    (hraw : ∀ n ∈ names, g n = [] → raw n ≠ []) :
    ∃ dir' data, loadSweeps shared combine noSlice raw false (some dir) names = (some dir', .ok data) ∧
      Holds dir' (fun n => if n ∈ names ∧ g n = [] then (freshGroups shared combine raw n).map some else (g n).map some) ∧
      (∀ n ∈ names, data n = some (if g n = [] then freshGroups shared combine raw n else (g n).reverse)) ∧
      ∀ n, n ∉ names → data n = none :=
  loadSweeps_holds shared combine raw dir g h names hne hnd hsep hk hraw

/-- Any later load of samples among those loaded first, under whatever settings (`raw'`, `combine'`), returns the groups stored by
the first load: the settings of the later load have no effect, and the cache does not change. -/
theorem C111_settings_false (combine' : List Sample → Sample) (raw raw' : SName → List Sample) (names names' : List SName)
    (hne : names' ≠ []) (hnd : names.Nodup) (hnd' : names'.Nodup) (hsub : ∀ n ∈ names', n ∈ names) (hsep : ∀ n ∈ names, '>' ∉ n)
    (hraw : ∀ n ∈ names, raw n ≠ []) (hk : ∀ n ∈ names, KeptApart (shared n) (freshGroups shared combine raw n)) :
    ∃ dir data data', loadSweeps shared combine noSlice raw false none names = (some dir, .ok data) ∧
      loadSweeps shared combine' noSlice raw' false (some dir) names' = (some dir, .ok data') ∧
      ∀ n ∈ names', data' n = (data n).map List.reverse := by
  have hne1 : names ≠ [] := by
    intro e
    cases hn : names' with
    | nil => exact hne hn
    | cons n ns =>
      have := hsub n (by rw [hn]; simp)
      rw [e] at this; simp at this
  obtain ⟨dir, data, h1, h2, h3⟩ := C111_first_load shared combine raw false none (.inr rfl) names hne1 hnd hsep hraw
  have hholds : Holds dir fun n => (if n ∈ names then freshGroups shared combine raw n else []).map some :=
    h2.congr fun n => by by_cases hn : n ∈ names <;> simp [hn]
  have hfull : ∀ n ∈ names', (if n ∈ names then freshGroups shared combine raw n else []) ≠ [] := by
    intro n hn
    rw [if_pos (hsub n hn)]
    exact freshGroups_ne_nil shared combine raw n (hraw n (hsub n hn))
  obtain ⟨data0, r1, r2⟩ := readCollection_holds shared combine' noSlice dir _ hholds names' hnd' (by
    intro n hn
    simp only [noSlice, List.filterMap_some, if_pos (hsub n hn)]
    exact hk n (hsub n hn))
  simp only [noSlice, List.filterMap_some] at r2
  have hmiss : (names'.filter fun n => (if n ∈ names then freshGroups shared combine raw n else []).isEmpty) = [] := by
    rw [List.filter_eq_nil_iff]
    intro n hn
    rw [List.isEmpty_iff]
    exact hfull n hn
  have hdata : ∀ n ∈ names', data0 n = (data n).map List.reverse := by
    intro n hn
    rw [r2 n, if_pos ⟨hn, hfull n hn⟩, h3 n, if_pos (hsub n hn), if_pos (hsub n hn)]
    rfl
  refine ⟨dir, data, data0, h1, ?_, hdata⟩
  have hsize : (names'.all fun n => ((data0 n).getD []).isEmpty) = false := by
    rw [List.all_eq_false]
    cases hn : names' with
    | nil => exact absurd hn hne
    | cons n ns =>
      refine ⟨n, by simp, ?_⟩
      have hmem : n ∈ names' := by rw [hn]; simp
      rw [r2 n, if_pos ⟨hmem, hfull n hmem⟩, Option.getD_some, List.isEmpty_iff]
      simpa using hfull n hmem
  rw [hmiss] at r1
  simp only [loadSweeps, r1, List.isEmpty_nil, if_true, hsize]
  simp

/-- When one sample is in the cache and another is not, the groups at the same position of the loaded collection belong to
different sweeps: position `i` of the cached sample is group `len - 1 - i`, position `i` of the other sample is group `i`. -/
theorem C111_mixed_false (raw : SName → List Sample) (n m : SName) (hnm : n ≠ m) (hn : '>' ∉ n) (hm : '>' ∉ m) (hrn : raw n ≠ [])
    (hrm : raw m ≠ []) (hk : KeptApart (shared n) (freshGroups shared combine raw n)) :
    ∃ dir data dir' data', loadSweeps shared combine noSlice raw false none [n] = (some dir, .ok data) ∧
      loadSweeps shared combine noSlice raw false (some dir) [n, m] = (some dir', .ok data') ∧
      data' n = some (freshGroups shared combine raw n).reverse ∧ data' m = some (freshGroups shared combine raw m) := by
  obtain ⟨dir, data, h1, h2, h3⟩ := C111_first_load shared combine raw false none (.inr rfl) [n] (by simp) (by simp) (by simpa using hn) (by simpa using hrn)
  have hholds : Holds dir fun k => (if k = n then freshGroups shared combine raw n else []).map some :=
    h2.congr fun k => by
      by_cases hk : k = n
      · subst hk; simp
      · simp [hk]
  obtain ⟨dir', data', r1, _, r3, _⟩ := loadSweeps_holds shared combine raw dir _ hholds [n, m] (by simp) (by simp [hnm]) (by simp [hn, hm])
    (by
      intro k hk'
      by_cases e : k = n
      · subst e; simpa using hk
      · simp only [e, if_false]; exact .inl (by simp)) (by
      intro k hk' _
      simp only [List.mem_cons, List.not_mem_nil, or_false] at hk'
      rcases hk' with rfl | rfl
      · exact hrn
      · exact hrm)
  refine ⟨dir, data, dir', data', h1, r1, ?_, ?_⟩
  · have := r3 n (by simp)
    simp only [if_true] at this
    rw [this, if_neg (freshGroups_ne_nil shared combine raw n hrn)]
  · have := r3 m (by simp)
    rwa [if_neg (Ne.symm hnm), if_pos rfl] at this

/-- The groups collected from the sweeps are different groups in the sense required above, if all arrays of a sample have the same
dimensions and combining a group does not change the shared coordinates. -/
theorem C111_groups_kept_apart (raw : SName → List Sample) (n : SName) (s0 : Sample) (samples : List Sample) (hr : raw n = s0 :: samples)
    (hdims : ∀ x ∈ samples, x.dims = s0.dims)
    (hcomb : ∀ first rest, (∀ x ∈ rest, x.dims = first.dims ∧ AgreeAlong (sharedOf (shared n) first) first x) →
      (combine (first :: rest)).dims = first.dims ∧ (rest ≠ [] → AgreeAlong (sharedOf (shared n) first) first (combine (first :: rest)))) :
    KeptApart (shared n) (freshGroups shared combine raw n) := by
  obtain ⟨hperm, hgne, hagree⟩ := C53_partition (shared n) s0 samples
  have hmemdims : ∀ g ∈ groupSamples (shared n) (s0 :: samples), ∀ x ∈ g, x.dims = s0.dims := by
    intro g hg x hx
    have : x ∈ s0 :: samples := hperm.mem_iff.mp (List.mem_flatten.mpr ⟨g, hg, hx⟩)
    rcases List.mem_cons.mp this with rfl | hx'
    · rfl
    · exact hdims x hx'
  -- a combined group has the dimensions of its members and agrees with its first member
  have hgroup : ∀ g ∈ groupSamples (shared n) (s0 :: samples), (combineGroup combine g).dims = s0.dims ∧
      ∀ first, g.head? = some first → (combineGroup combine g = first ∨ AgreeAlong (sharedOf (shared n) s0) first (combineGroup combine g)) := by
    intro g hg
    match g, hg with
    | [], hg => exact absurd rfl (hgne [] hg)
    | [x], hg => exact ⟨hmemdims [x] hg x (by simp), fun first hf => .inl (by simpa [combineGroup] using hf)⟩
    | x :: y :: r, hg =>
      have hx := hmemdims _ hg x (by simp)
      have hsh : sharedOf (shared n) x = sharedOf (shared n) s0 := by simp [sharedOf, hx]
      obtain ⟨h1, h2⟩ := hcomb x (y :: r) (fun z hz => ⟨by rw [hmemdims _ hg z (by simp [List.mem_cons.mp hz]), hx], by
        rw [hsh]; exact hagree x (y :: r) hg z hz⟩)
      refine ⟨by simpa [combineGroup] using h1.trans hx, fun first hf => .inr ?_⟩
      simp only [List.head?_cons, Option.some.injEq] at hf
      subst hf
      rw [← hsh]
      exact h2 (by simp)
  have hfg : freshGroups shared combine raw n = (groupSamples (shared n) (s0 :: samples)).map (combineGroup combine) := by
    rw [freshGroups, hr]
  rw [hfg]
  by_cases hall : ∀ d ∈ s0.dims, d ∈ shared n
  · left
    intro x hx d hd
    obtain ⟨g, hg, rfl⟩ := List.mem_map.mp hx
    rw [(hgroup g hg).1] at hd
    exact hall d hd
  · right
    push Not at hall
    intro x hx
    obtain ⟨g0, hg0, rfl⟩ := List.mem_map.mp hx
    have hsh : sharedOf (shared n) (combineGroup combine g0) = sharedOf (shared n) s0 := by simp [sharedOf, (hgroup g0 hg0).1]
    rw [hsh, List.pairwise_map]
    have hheads := C53_groups_differ (shared n) s0 samples hall
    rw [List.pairwise_filterMap] at hheads
    refine hheads.imp_of_mem ?_
    intro a b ha hb hab hag
    cases ha' : a.head? with
    | none => exact absurd (List.head?_eq_none_iff.mp ha') (hgne a ha)
    | some fa =>
      cases hb' : b.head? with
      | none => exact absurd (List.head?_eq_none_iff.mp hb') (hgne b hb)
      | some fb =>
        refine hab fa ha' fb hb' ?_
        have h1 : AgreeAlong (sharedOf (shared n) s0) fa (combineGroup combine b) := by
          rcases (hgroup a ha).2 fa ha' with e | e
          · rw [← e]; exact hag
          · exact e.trans hag
        rcases (hgroup b hb).2 fb hb' with e | e
        · rw [← e]; exact h1
        · exact h1.trans (Spec.AgreeAlong.symm e)

/-- What is collected for a sample: its arrays are divided into groups, each array in exactly one, whose members agree with the first
one along the shared dimensions; a group with one member is that array, any other is the combination of its members. -/
theorem C111_collected (raw : SName → List Sample) (n : SName) (s0 : Sample) (samples : List Sample) (hr : raw n = s0 :: samples) :
    ∃ groups : List (List Sample), groups.flatten.Perm (s0 :: samples) ∧
      (∀ first rest, (first :: rest) ∈ groups → ∀ x ∈ rest, AgreeAlong (sharedOf (shared n) s0) first x) ∧
      (freshGroups shared combine raw n).length = groups.length ∧
      (∀ (i : Nat) (x : Sample), groups[i]? = some [x] → (freshGroups shared combine raw n)[i]? = some x) ∧
      ∀ (i : Nat) (x y : Sample) (rest : List Sample), groups[i]? = some (x :: y :: rest) →
        (freshGroups shared combine raw n)[i]? = some (combine (x :: y :: rest)) := by
  obtain ⟨h1, _, h3⟩ := C53_partition (shared n) s0 samples
  refine ⟨groupSamples (shared n) (s0 :: samples), h1, h3, by simp [freshGroups, hr], ?_, ?_⟩
  · intro i x hx
    simp [freshGroups, hr, hx, combineGroup]
  · intro i x y rest hx
    simp [freshGroups, hr, hx, combineGroup]

/-! ## Interrupted loads -/

theorem crash_counts (groups : SName → List Sample) : ∀ (ns : List SName) (k : Nat) {dir : CacheDir} {c : SName → List (Option Sample)},
    Holds dir c → ns.Nodup → (∀ n ∈ ns, '>' ∉ n) → (∀ n ∈ ns, c n = []) →
    ∃ counts : SName → Nat, (∀ n ∈ ns, counts n ≤ (groups n).length) ∧
      (ns.map counts).sum = min k (ns.map fun n => (groups n).length).sum ∧
      Holds (putFiles ((ns.flatMap fun n => writesOf n (groups n)).take k) dir)
        (fun m => if m ∈ ns then ((groups m).take (counts m)).map some else c m)
  | [], k, dir, c, h, _, _, _ => ⟨fun _ => 0, by simp, by simp, by simpa [putFiles] using h⟩
  | n :: ns, k, dir, c, h, hnd, hs, hc => by
    simp only [List.nodup_cons] at hnd
    have h1 := h.putAll n (hs n (by simp)) (hc n (by simp)) ((groups n).take k)
    obtain ⟨counts, a1, a2, a3⟩ := crash_counts groups ns (k - (groups n).length) h1 hnd.2 (fun m hm => hs m (by simp [hm])) (by
      intro m hm
      have : m ≠ n := fun e => hnd.1 (e ▸ hm)
      simp only [this, if_false]
      exact hc m (by simp [hm]))
    refine ⟨fun m => if m = n then min k (groups n).length else counts m, ?_, ?_, ?_⟩
    · intro m hm
      by_cases he : m = n
      · subst he; simp
      · simp only [he, if_false]
        exact a1 m (by simpa [he] using hm)
    · have : ns.map (fun m => if m = n then min k (groups n).length else counts m) = ns.map counts :=
        List.map_congr_left fun m hm => by
          have : m ≠ n := by rintro rfl; exact hnd.1 hm
          simp [this]
      simp only [List.map_cons, if_true, this, List.sum_cons, a2]
      omega
    · have hlen : (writesOf n (groups n)).length = (groups n).length := by simp [writesOf]
      rw [List.flatMap_cons, List.take_append, writesOf_take, hlen, putFiles, List.foldl_append]
      refine a3.congr fun m => ?_
      by_cases hm : m = n
      · subst hm
        simp only [hnd.1, if_false, if_true, List.mem_cons, true_or]
        congr 1
        by_cases hle : k ≤ (groups m).length
        · rw [Nat.min_eq_left hle]
        · rw [Nat.min_eq_right (by omega), List.take_of_length_le (by omega), List.take_length]
      · simp [hm]

/-- A first load that is interrupted after `k` of its files have been written, at any point between two writes: the next load
completes without error, and every requested sample is either collected anew, when none of its files had been written, or
consists of the groups whose files had been written. -/
theorem C111_crash_partial (raw raw' : SName → List Sample) (names : List SName) (hne : names ≠ []) (hnd : names.Nodup)
    (hsep : ∀ n ∈ names, '>' ∉ n) (hraw : ∀ n ∈ names, raw' n ≠ []) (hk : ∀ n ∈ names, ∀ j, KeptApart (shared n) ((freshGroups shared combine raw n).take j)) (k : Nat) :
    ∃ counts : SName → Nat, (∀ n ∈ names, counts n ≤ (freshGroups shared combine raw n).length) ∧
      (names.map counts).sum = min k (names.map fun n => (freshGroups shared combine raw n).length).sum ∧
      ∃ dir' data, loadSweeps shared combine noSlice raw' false
          (some (crashDir [] (names.flatMap fun n => writesOf n (freshGroups shared combine raw n)) k false)) names = (some dir', .ok data) ∧
        ∀ n ∈ names, data n = some (if counts n = 0 then freshGroups shared combine raw' n
          else ((freshGroups shared combine raw n).take (counts n)).reverse) := by
  obtain ⟨counts, h1, h2, h3⟩ := crash_counts (freshGroups shared combine raw) names k Spec.Holds.nil hnd hsep (by simp)
  have hcrash : crashDir [] (names.flatMap fun n => writesOf n (freshGroups shared combine raw n)) k false =
      putFiles ((names.flatMap fun n => writesOf n (freshGroups shared combine raw n)).take k) [] := rfl
  -- groups held after the crash; a sample with no group left counts as absent
  have hholds : Holds (crashDir [] (names.flatMap fun n => writesOf n (freshGroups shared combine raw n)) k false)
      fun n => (if n ∈ names then (freshGroups shared combine raw n).take (counts n) else []).map some := by
    rw [hcrash]
    exact h3.congr fun n => by by_cases hn : n ∈ names <;> simp [hn]
  obtain ⟨dir', data, r1, _, r3, _⟩ := loadSweeps_holds shared combine raw' _ _ hholds names hne hnd hsep
    (fun n hn => by rw [if_pos hn]; exact hk n hn (counts n)) (fun n hn _ => hraw n hn)
  refine ⟨counts, h1, h2, dir', data, r1, fun n hn => ?_⟩
  rw [r3 n hn, if_pos hn]
  by_cases hc : counts n = 0
  · simp [hc]
  · by_cases hf : freshGroups shared combine raw n = []
    · have := h1 n hn
      rw [hf] at this; simp at this; exact absurd this hc
    · have : ¬ (freshGroups shared combine raw n).take (counts n) = [] := by
        rw [List.take_eq_nil_iff]; tauto
      rw [if_neg this, if_neg hc]

/-- In particular a load interrupted after at least one but not all groups of the sample were written is followed by loads that
succeed and lack groups; nothing is collected again. -/
theorem C111_crash_false (raw : SName → List Sample) (n : SName) (hsep : '>' ∉ n) (hraw : raw n ≠ [])
    (hk : ∀ j, KeptApart (shared n) ((freshGroups shared combine raw n).take j)) (k : Nat) (hk0 : 0 < k)
    (hlt : k < (freshGroups shared combine raw n).length) :
    ∃ dir' data xs, loadSweeps shared combine noSlice raw false (some (crashDir [] (writesOf n (freshGroups shared combine raw n)) k false)) [n] = (some dir', .ok data) ∧
      data n = some xs ∧ xs.length = k ∧ xs.length < (freshGroups shared combine raw n).length := by
  obtain ⟨counts, h1, h2, dir', data, h3, h4⟩ := C111_crash_partial shared combine raw raw [n] (by simp) (by simp) (by simpa using hsep)
    (by simpa using hraw) (by simpa using hk) k
  simp only [List.map_cons, List.map_nil, List.sum_cons, List.sum_nil, Nat.add_zero] at h2
  have hc : counts n = k := by omega
  refine ⟨dir', data, ((freshGroups shared combine raw n).take k).reverse, by simpa using h3, ?_, ?_, ?_⟩
  · rw [h4 n (by simp), hc, if_neg (by omega)]
  · simp; omega
  · simp; omega

/-- A load interrupted while a file was being written makes every later load of that sample fail, leaving the directory as it
is, until a reload is forced. -/
theorem C111_torn (raw raw' : SName → List Sample) (reslice : SName → Sample → Option Sample) (n : SName) (hsep : '>' ∉ n) (k : Nat)
    (hlt : k < (freshGroups shared combine raw n).length) (names : List SName) (hmem : n ∈ names) :
    let dir := crashDir [] (writesOf n (freshGroups shared combine raw n)) k true
    loadSweeps shared combine reslice raw' false (some dir) names = (some dir, .error .unreadable) := by
  intro dir
  have hdir : dir = putFile (groupFile n k) none (putFiles ((writesOf n (freshGroups shared combine raw n)).take k) []) := by
    have hw : (writesOf n (freshGroups shared combine raw n))[k]? = some (writtenFile n k, (freshGroups shared combine raw n)[k]) := by
      simp [writesOf, List.getElem?_zipIdx, hlt]
    simp only [dir, crashDir, hw, writtenFile_eq]
  have h1 := Spec.Holds.nil.putAll n hsep rfl ((freshGroups shared combine raw n).take k)
  have h2 := h1.put n hsep none
  simp only [if_true, List.length_map, List.length_take, Nat.min_eq_left (Nat.le_of_lt hlt)] at h2
  have hholds : Holds dir fun m => if m = n then ((freshGroups shared combine raw n).take k).map some ++ [none] else [] := by
    rw [hdir, writesOf_take]
    exact h2.congr fun m => by by_cases hm : m = n <;> simp [hm]
  obtain ⟨ids, i1, i2⟩ := hholds.ids
  have hread := readCollection_eq shared combine reslice dir names ids i1
  rw [readArrays_error] at hread
  · simp only [loadSweeps, hread]
  · refine ⟨(n, showNat k), ?_, ?_⟩
    · rw [List.mem_flatMap]
      have hi := i2 n
      simp only [if_true] at hi
      rw [if_neg (by simp)] at hi
      refine ⟨n, List.mem_filter.mpr ⟨hmem, by rw [hi]; rfl⟩, ?_⟩
      rw [hi]
      simp only [Option.getD_some, List.mem_map, List.mem_range]
      exact ⟨showNat k, ⟨k, by simp; omega, rfl⟩, rfl⟩
    · simp only [readFile_eq]
      have hlen : k < ((fun m => if m = n then ((freshGroups shared combine raw n).take k).map some ++ [none] else ([] : List (Option Sample))) n).length := by
        simp; omega
      rw [hholds.content n k hlen]
      simp [List.getElem_append, Nat.min_eq_left (Nat.le_of_lt hlt)]

/-! ## Any directory -/

/-- A forced reload does not look at the directory. -/
theorem C111_force (raw : SName → List Sample) (reslice : SName → Sample → Option Sample) (old : Option CacheDir) (names : List SName) :
    loadSweeps shared combine reslice raw true old names = loadSweeps shared combine reslice raw false none names := by
  cases old <;> rfl

/-- Whatever is in the directory, a requested sample is reported as not loaded exactly when no file name starts with its name
(followed by `>`); only requested samples are loaded and no sample is both loaded and reported. -/
theorem C111_split (reslice : SName → Sample → Option Sample) (dir : CacheDir) (names : List SName) (hsep : ∀ n ∈ names, '>' ∉ n) (data : Collected) (missing : List SName)
    (h : readCollection shared combine reslice false (some dir) names = (some dir, .ok (data, missing))) :
    (∀ n, n ∈ missing ↔ n ∈ names ∧ ¬ ∃ f ∈ dir.map (·.1), f = n ∨ ∃ rest, f = n ++ '>' :: rest) ∧
    ∀ n xs, data n = some xs → n ∈ names ∧ n ∉ missing := by
  cases hs : sortedIds (groupIds (dir.map (·.1))) with
  | none => simp [readCollection, hs] at h
  | some ids =>
    rw [readCollection_eq shared combine reslice dir names ids hs] at h
    have hkeys : ∀ n, (findKey n ids).isSome ↔ ∃ f ∈ dir.map (·.1), (parseFile f).1 = n := by
      intro n
      rw [sortedIds_keys _ _ hs n]
      exact (groupIds_spec (dir.map (·.1))).2.1 n
    split at h
    · simp at h
    · rename_i arrays harr
      simp only [Prod.mk.injEq, Except.ok.injEq, true_and] at h
      obtain ⟨rfl, rfl⟩ := h
      constructor
      · intro n
        rw [List.mem_filter]
        refine and_congr_right fun hn => ?_
        rw [← Option.not_isSome, Bool.not_eq_true', ← Bool.not_eq_true, hkeys n]
        refine not_congr (exists_congr fun f => and_congr_right fun _ => ?_)
        exact parseFile_name f n (hsep n hn)
      · intro n xs hx
        have hsrc : ∀ (groups : List (SName × List Char)) (arrs : List (SName × Sample)), readArrays reslice dir groups = .ok arrs →
            ∀ a ∈ arrs, ∃ q ∈ groups, q.1 = a.1 := by
          intro groups
          induction groups with
          | nil => intro arrs ha a hm; simp [readArrays] at ha; subst ha; simp at hm
          | cons q qs ih =>
            intro arrs ha a hm
            rw [readArrays] at ha
            split at ha
            · rename_i x _
              split at ha
              · cases ha
              · rename_i r hr
                simp only [Except.ok.injEq] at ha
                subst ha
                split at hm
                · rcases List.mem_cons.mp hm with rfl | hm
                  · exact ⟨q, by simp, rfl⟩
                  · obtain ⟨p, hp, e⟩ := ih r hr a hm
                    exact ⟨p, by simp [hp], e⟩
                · obtain ⟨p, hp, e⟩ := ih r hr a hm
                  exact ⟨p, by simp [hp], e⟩
            · cases ha
        simp only [initCollection] at hx
        rw [foldGroups] at hx
        split at hx
        · simp at hx
        · rename_i hne
          obtain ⟨a, ha⟩ : ∃ a, a ∈ (arrays.reverse.filter fun a => a.1 = n) := by
            apply List.exists_mem_of_ne_nil
            intro e; rw [e] at hne; simp at hne
          rw [List.mem_filter] at ha
          obtain ⟨q, hq, e⟩ := hsrc _ _ harr a (List.mem_reverse.mp ha.1)
          obtain ⟨m, hm, hqm⟩ := List.mem_flatMap.mp hq
          obtain ⟨gid, _, rfl⟩ := List.mem_map.mp hqm
          simp only [decide_eq_true_eq] at ha
          have hmn : m = n := by rw [← ha.2, ← e]
          subst hmn
          rw [List.mem_filter] at hm
          refine ⟨hm.1, fun hh => ?_⟩
          have h2 := (List.mem_filter.mp hh).2
          rw [← Option.not_isSome, Bool.not_eq_true'] at h2
          rw [h2] at hm
          exact absurd hm.2 (by simp)

theorem putFiles_content (f : List Char) : ∀ (writes : List (List Char × Sample)) (dir : CacheDir), f ∉ writes.map (·.1) →
    fileContent (putFiles writes dir) f = fileContent dir f
  | [], dir, _ => rfl
  | w :: ws, dir, h => by
    simp only [List.map_cons, List.mem_cons, not_or] at h
    have := putFiles_content f ws (putFile w.1 (some w.2) dir) h.2
    rw [putFiles, List.foldl_cons]
    rw [putFiles] at this
    rw [this]
    have hput : ∀ d : CacheDir, findKey f (putFile w.1 (some w.2) d) = findKey f d := by
      intro d
      induction d with
      | nil => simp [putFile, findKey, Ne.symm h.1]
      | cons e r ih =>
        obtain ⟨k, y⟩ := e
        unfold putFile
        split
        · rename_i hk
          simp only [findKey]
          have : ¬ k = f := by rintro rfl; exact h.1 hk
          rw [if_neg this, if_neg this]
        · simp only [findKey, ih]
    exact hput dir

/-- A load that is not forced never changes or removes a file that was there before: whatever the directory and whether or not the
load succeeds. -/
theorem C111_writes_new_files (raw : SName → List Sample) (reslice : SName → Sample → Option Sample) (dir : CacheDir) (names : List SName)
    (hsep : ∀ n ∈ names, '>' ∉ n) :
    ∃ dir', (loadSweeps shared combine reslice raw false (some dir) names).1 = some dir' ∧
      ∀ f, f ∈ dir.map (·.1) → fileContent dir' f = fileContent dir f := by
  cases hr : readCollection shared combine reslice false (some dir) names with
  | mk d0 res =>
    have hd0 : d0 = some dir := by
      have := congrArg Prod.fst hr
      simpa [readCollection] using this.symm
    subst hd0
    cases res with
    | error e => exact ⟨dir, by simp [loadSweeps, hr], fun f _ => rfl⟩
    | ok r =>
      obtain ⟨data, missing⟩ := r
      by_cases hm : missing.isEmpty = true
      · exact ⟨dir, by simp only [loadSweeps, hr, hm, if_true], fun f _ => rfl⟩
      · have hkeep : ∀ (ns : List SName) (d : CacheDir) (c : Collected), (∀ n ∈ ns, n ∈ missing) →
            ∀ f ∈ dir.map (·.1), fileContent (collectMissing shared combine raw ns d c).1 f = fileContent d f := by
          intro ns
          induction ns with
          | nil => intro d c _ f _; rfl
          | cons n ns ih =>
            intro d c hns f hf
            rw [collectMissing]
            split
            · rfl
            · rw [ih _ _ (fun m hm => hns m (by simp [hm])) f hf, putFiles_content]
              intro hmem
              obtain ⟨w, hw, rfl⟩ := List.mem_map.mp hmem
              obtain ⟨q, _, rfl⟩ := List.mem_map.mp hw
              have hmiss := ((C111_split shared combine reslice dir names hsep data missing hr).1 n).mp (hns n (by simp))
              refine hmiss.2 ⟨_, hf, .inr ⟨showNat q.2 ++ ['.', 'n', 'c'], ?_⟩⟩
              simp only [writtenFile_eq, groupFile]
        refine ⟨(collectMissing shared combine raw missing dir data).1, ?_, fun f hf => hkeep missing dir data (fun n hn => hn) f hf⟩
        simp only [loadSweeps, hr, hm, Option.getD_some]
        cases hc : (collectMissing shared combine raw missing dir data).2 <;> simp [hc]

/-- A sample that was requested, is not in the cache and of which nothing was collected makes `load` fail with an
`AttributeError` (not with `EmptyData`), whatever else was loaded. -/
theorem C111_nothing_collected_false (raw : SName → List Sample) (reslice : SName → Sample → Option Sample) (names : List SName) (n : SName)
    (hn : n ∈ names) (hraw : raw n = []) : (loadSweeps shared combine reslice raw false none names).2 = .error .attributeError := by
  have key : ∀ (ns : List SName) (d : CacheDir) (c : Collected), n ∈ ns → (collectMissing shared combine raw ns d c).2 = .error .attributeError := by
    intro ns
    induction ns with
    | nil => intro d c h; simp at h
    | cons m ms ih =>
      intro d c h
      rw [collectMissing]
      split
      · rfl
      · rename_i hm
        apply ih
        rcases List.mem_cons.mp h with rfl | h
        · simp [hraw] at hm
        · exact h
  have hne : ¬ names.isEmpty = true := by
    rw [List.isEmpty_iff]; intro e; rw [e] at hn; simp at hn
  simp only [loadSweeps, readCollection, hne, Option.getD_none]
  simp [key names [] (fun _ => none) hn]

/-- With the setting `slice` the stored arrays are sliced a second time. A sample all of whose arrays are dropped by that is
neither loaded nor reported as missing. -/
theorem C111_resliced_partial (reslice : SName → Sample → Option Sample) (dir : CacheDir) (g : SName → List Sample)
    (h : Holds dir fun n => (g n).map some) (names : List SName) (hnd : names.Nodup)
    (hk : ∀ n ∈ names, KeptApart (shared n) ((g n).filterMap (reslice n))) :
    ∃ data, readCollection shared combine reslice false (some dir) names = (some dir, .ok (data, names.filter fun n => (g n).isEmpty)) ∧
      (∀ n ∈ names, (g n).filterMap (reslice n) ≠ [] → data n = some ((g n).filterMap (reslice n)).reverse) ∧
      (∀ n ∈ names, (g n).filterMap (reslice n) = [] → data n = none) := by
  obtain ⟨data, h1, h2⟩ := readCollection_holds shared combine reslice dir g h names hnd hk
  refine ⟨data, h1, fun n hn hf => ?_, fun n hn hf => ?_⟩
  · rw [h2 n, if_pos ⟨hn, hf⟩]
  · rw [h2 n, if_neg (fun hh => hh.2 hf)]

end

/-! ## A concrete experiment

Two samples, `table` and `theta`, three sweeps each; every sweep is a group of its own. -/

/-- Array `i` of a sample, with one shared and one other dimension. -/
def demoSample (i : Nat) : Sample := ⟨i, ["sigma", "seed"], fun k => if k = "sigma" then some [(i : Int)] else if k = "seed" then some [7] else none⟩

def demoTable : SName := ['t', 'a', 'b', 'l', 'e']
def demoTheta : SName := ['t', 'h', 'e', 't', 'a']
def demoRaw : SName → List Sample := fun n => if n = demoTable then [demoSample 0, demoSample 1, demoSample 2]
  else if n = demoTheta then [demoSample 0, demoSample 1, demoSample 2] else []
def demoShared : SName → List String := fun _ => ["sigma"]
/-- Identifiers of the arrays of a loaded sample. -/
def loadedIds (r : Option CacheDir × Except LoadError Collected) (n : SName) : Option (List Nat) :=
  match r.2 with
  | .error _ => none
  | .ok data => (data n).map (List.map (·.id))

/-- First load: the order of the sweeps. -/
example : loadedIds (loadSweeps demoShared (fun g => g.headD (demoSample 9)) noSlice demoRaw false none [demoTable, demoTheta]) demoTable = some [0, 1, 2] := by
  decide +kernel

/-- Second load: the reverse order. -/
example : loadedIds (loadSweeps demoShared (fun g => g.headD (demoSample 9)) noSlice demoRaw false
    (loadSweeps demoShared (fun g => g.headD (demoSample 9)) noSlice demoRaw false none [demoTable]).1 [demoTable]) demoTable = some [2, 1, 0] := by
  decide +kernel

/-- The same with `theta` not yet in the cache. -/
example :
    let load := fun dir names => loadSweeps demoShared (fun g => g.headD (demoSample 9)) noSlice demoRaw false dir names
    let second := load (load none [demoTable]).1 [demoTable, demoTheta]
    loadedIds second demoTable = some [2, 1, 0] ∧ loadedIds second demoTheta = some [0, 1, 2] := by
  decide +kernel

/-- The hypotheses of the theorems above hold of this experiment. -/
example : KeptApart (demoShared demoTable) (freshGroups demoShared (fun g => g.headD (demoSample 9)) demoRaw demoTable) := by
  refine C111_groups_kept_apart demoShared _ demoRaw demoTable (demoSample 0) [demoSample 1, demoSample 2] rfl (by simp [demoSample]) ?_
  intro first rest h
  refine ⟨rfl, fun hne => ?_⟩
  change AgreeAlong _ first first
  cases rest with
  | nil => exact absurd rfl hne
  | cons x r =>
    have := (h x (by simp)).2
    exact this.trans (Spec.AgreeAlong.symm this)

/-- Interrupted after two of the three files of `table`. -/
example : loadedIds (loadSweeps demoShared (fun g => g.headD (demoSample 9)) noSlice demoRaw false
    (some (crashDir [] (writesOf demoTable (freshGroups demoShared (fun g => g.headD (demoSample 9)) demoRaw demoTable)) 2 false)) [demoTable]) demoTable = some [1, 0] := by
  decide +kernel

/-- File names. -/
example : String.ofList (writtenFile demoTable 12) = "table>12.nc" ∧ parseFile "table>12.nc".toList = (demoTable, ["12".toList]) := by
  decide +kernel

end GeNSIT
