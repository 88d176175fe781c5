import Verif.Summary.Folders

/-!
# C126: which folders are summarised, and in which order
-/

set_option linter.unusedSimpArgs false
set_option linter.unusedVariables false

namespace GeNSIT

/-- C126: if directories are given, exactly those that exist are used, for every data set and directory in the given order; if none
exists the summary is refused. -/
theorem C126_given (exists_ : Txt → Bool) (out : Txt) (datasets directories : List Txt) :
    (∀ l, givenFolders exists_ out datasets directories = .ok l →
      l ≠ [] ∧ l = (datasets.flatMap fun d => directories.map fun x => osJoin (osJoin out d) x).filter exists_ ∧
      ∀ path, path ∈ l ↔ exists_ path = true ∧ ∃ d ∈ datasets, ∃ x ∈ directories, path = osJoin (osJoin out d) x) ∧
    ((∃ d ∈ datasets, ∃ x ∈ directories, exists_ (osJoin (osJoin out d) x) = true) ↔
      ∃ l, givenFolders exists_ out datasets directories = .ok l) := by
  have hmem : ∀ path, path ∈ (datasets.flatMap fun d => directories.map fun x => osJoin (osJoin out d) x).filter exists_ ↔
      exists_ path = true ∧ ∃ d ∈ datasets, ∃ x ∈ directories, path = osJoin (osJoin out d) x := by
    intro path
    simp only [List.mem_filter, List.mem_flatMap, List.mem_map]
    constructor
    · rintro ⟨⟨d, hd, x, hx, rfl⟩, he⟩; exact ⟨he, d, hd, x, hx, rfl⟩
    · rintro ⟨he, d, hd, x, hx, rfl⟩; exact ⟨⟨d, hd, x, hx, rfl⟩, he⟩
  unfold givenFolders
  constructor
  · intro l h
    simp only at h
    split at h
    · simp at h
    · rename_i hne
      simp only [Except.ok.injEq] at h
      subst h
      exact ⟨by intro hc; rw [hc] at hne; simp at hne, rfl, hmem⟩
  · constructor
    · rintro ⟨d, hd, x, hx, he⟩
      have := (hmem _).2 ⟨he, d, hd, x, hx, rfl⟩
      simp only
      rw [if_neg]
      · exact ⟨_, rfl⟩
      · intro hc
        rw [List.length_eq_zero_iff] at hc
        rw [hc] at this
        simp at this
    · rintro ⟨l, h⟩
      simp only at h
      split at h
      · simp at h
      · rename_i hne
        rw [List.length_eq_zero_iff] at hne
        obtain ⟨p, hp⟩ := List.exists_mem_of_ne_nil _ hne
        obtain ⟨he, d, hd, x, hx, rfl⟩ := (hmem p).1 hp
        exact ⟨d, hd, x, hx, he⟩

example : givenFolders (fun p => p != "o/b/y".toList) "o".toList ["a".toList, "b".toList] ["x".toList, "y".toList] =
    .ok ["o/a/x".toList, "o/a/y".toList, "o/b/x".toList] := by decide +kernel

/-- C126: the folder of a given directory: output directory, data set and directory separated by single slashes, whether or not they were given
with one at the end; a part that starts with a slash replaces what precedes it; empty parts in front add nothing. -/
theorem C126_given_path (out d x : Txt) (hd : d.head? ≠ some '/') (hx : x.head? ≠ some '/') :
    (out ≠ [] → out.getLast? ≠ some '/' → d ≠ [] → d.getLast? ≠ some '/' → osJoin (osJoin out d) x = out ++ '/' :: d ++ '/' :: x) ∧
    (out ≠ [] → out.getLast? ≠ some '/' → d ≠ [] → osJoin (osJoin (out ++ ['/']) (d ++ ['/'])) x = out ++ '/' :: d ++ '/' :: x) ∧
    (d ≠ [] → d.getLast? ≠ some '/' → osJoin (osJoin [] d) x = d ++ '/' :: x) ∧
    osJoin (osJoin out d) ('/' :: x) = '/' :: x ∧ osJoin (osJoin out ('/' :: d)) x = osJoin ('/' :: d) x := by
  have hlast : ∀ (a b : Txt), b ≠ [] → (a ++ b).getLast? = b.getLast? := by
    intro a b hb
    rw [List.getLast?_append]
    cases hl : b.getLast? with
    | none => exact absurd (List.getLast?_eq_none_iff.1 hl) hb
    | some c => rfl
  refine ⟨fun ho hol hde hdl => ?_, fun ho hol hde => ?_, fun hde hdl => ?_, ?_, ?_⟩
  · have h1 : osJoin out d = out ++ '/' :: d := by
      unfold osJoin; rw [if_neg hd, if_neg (by rintro (h | h) <;> contradiction)]
    rw [h1]
    unfold osJoin
    rw [if_neg hx, if_neg]
    rintro (h | h)
    · simp at h
    · rw [hlast _ _ (by simp)] at h
      have : ('/' :: d).getLast? = d.getLast? := hlast ['/'] d hde
      rw [this] at h
      exact hdl h
  · have hdh : (d ++ ['/']).head? ≠ some '/' := by
      cases d with
      | nil => exact absurd rfl hde
      | cons c r => simpa using hd
    have h1 : osJoin (out ++ ['/']) (d ++ ['/']) = out ++ ['/'] ++ (d ++ ['/']) := by
      unfold osJoin; rw [if_neg hdh, if_pos (Or.inr (by simp))]
    rw [h1]
    unfold osJoin
    rw [if_neg hx, if_pos (Or.inr (by rw [← List.append_assoc]; exact List.getLast?_append_of_ne_nil _ (by simp)))]
    simp
  · have h1 : osJoin [] d = d := by
      unfold osJoin; rw [if_neg hd, if_pos (Or.inl rfl)]; rfl
    rw [h1]
    unfold osJoin
    rw [if_neg hx, if_neg (by rintro (h | h) <;> contradiction)]
  · unfold osJoin; simp
  · rfl

example : osJoin (osJoin "out".toList "d".toList) "x".toList = "out/d/x".toList := by decide +kernel

/-- A successful search in terms of its parts. -/
theorem findFolders_ok {dateOf : Txt → Option ℕ} {dir : Txt → Option DirTree} {c : SearchSettings} {l : List Txt}
    (h : findFolders dateOf dir c = .ok l) :
    (∀ p ∈ l, (dateOf p).isSome) ∧ l ≠ [] ∧
      l = ((c.candidates dir).filter (rxSearch c.patterns)).insertionSort fun a b => (dateOf a).getD 0 ≤ (dateOf b).getD 0 := by
  unfold findFolders at h
  simp only at h
  split at h
  · simp at h
  split at h
  · simp at h
  rename_i hany
  split at h
  · simp at h
  rename_i hlen
  simp only [Except.ok.injEq] at h
  subst h
  refine ⟨?_, ?_, rfl⟩
  · intro p hp
    rw [List.mem_insertionSort] at hp
    cases hd : dateOf p with
    | some v => rfl
    | none =>
      exact absurd (List.any_eq_true.2 ⟨p, hp, by simp [hd]⟩) hany
  · intro hc; rw [hc] at hlen; simp at hlen

/-- C126: without directories, the folders found are exactly the output folders of the data sets whose path contains data set and group
and, in this order, one of the types, one of the titles and something like one of the dates. -/
theorem C126_found (dateOf : Txt → Option ℕ) (dir : Txt → Option DirTree) (c : SearchSettings) (l : List Txt)
    (h : findFolders dateOf dir c = .ok l) (path : Txt) :
    path ∈ l ↔ Spec.OutputFolder dir c path ∧ ∃ d ∈ c.datasets, ∃ ty ∈ c.types, ∃ ti ∈ c.titles, ∃ dt ∈ Spec.datesOf c, ∃ text,
      Spec.DateLike dt text ∧ Spec.Contains c.group d ty ti text path := by
  obtain ⟨_, _, rfl⟩ := findFolders_ok h
  rw [List.mem_insertionSort, List.mem_filter, mem_candidates, search_patterns]

/-- C126: they are in order of time; folders of the same time are in order of their path. -/
theorem C126_sorted (dateOf : Txt → Option ℕ) (dir : Txt → Option DirTree) (c : SearchSettings) (l : List Txt)
    (h : findFolders dateOf dir c = .ok l) :
    l.Pairwise fun a b => ∃ s t, dateOf a = some s ∧ dateOf b = some t ∧ (s < t ∨ (s = t ∧ txtLe a b = true)) := by
  obtain ⟨hd, _, hl⟩ := findFolders_ok h
  have hs : (c.candidates dir).Pairwise fun a b => txtLe a b = true := by
    unfold SearchSettings.candidates
    exact List.pairwise_insertionSort _ _
  have hst := insertionSort_stable (fun p => (dateOf p).getD 0) (fun a b => txtLe a b = true) _ (hs.sublist (List.filter_sublist (p := rxSearch c.patterns)))
  rw [← hl] at hst
  refine List.Pairwise.imp_of_mem ?_ hst
  intro a b ha hb hab
  obtain ⟨s, hs⟩ := Option.isSome_iff_exists.1 (hd a ha)
  obtain ⟨t, ht⟩ := Option.isSome_iff_exists.1 (hd b hb)
  rw [hs, ht] at hab
  exact ⟨s, t, hs, ht, hab⟩

/-- C126: the search succeeds exactly if some folder matches, nothing is to be excluded, and the time of all matching folders can be
read. -/
theorem C126_succeeds (dateOf : Txt → Option ℕ) (dir : Txt → Option DirTree) (c : SearchSettings) :
    (∃ l, findFolders dateOf dir c = .ok l) ↔
      c.exclude = [] ∧ (∃ p, p ∈ c.candidates dir ∧ rxSearch c.patterns p = true) ∧
        ∀ p, p ∈ c.candidates dir → rxSearch c.patterns p = true → (dateOf p).isSome := by
  unfold findFolders
  simp only
  constructor
  · rintro ⟨l, h⟩
    split at h
    · simp at h
    rename_i hex
    split at h
    · simp at h
    rename_i hany
    split at h
    · simp at h
    rename_i hlen
    rw [List.length_insertionSort] at hlen
    have hne : (c.candidates dir).filter (rxSearch c.patterns) ≠ [] := by
      intro hc; rw [hc] at hlen; simp at hlen
    refine ⟨?_, ?_, ?_⟩
    · by_contra hc
      exact hex ⟨List.length_pos_of_ne_nil hc, hne⟩
    · obtain ⟨p, hp⟩ := List.exists_mem_of_ne_nil _ hne
      exact ⟨p, List.mem_filter.1 hp⟩
    · intro p h1 h2
      cases hd : dateOf p with
      | some v => rfl
      | none => exact absurd (List.any_eq_true.2 ⟨p, List.mem_filter.2 ⟨h1, h2⟩, by simp [hd]⟩) hany
  · rintro ⟨h1, ⟨p, h2, h3⟩, h4⟩
    rw [if_neg (by simp [h1]), if_neg, if_neg]
    · exact ⟨_, rfl⟩
    · rw [List.length_insertionSort, List.length_eq_zero_iff]
      intro hc
      have := List.mem_filter.2 ⟨h2, h3⟩
      rw [hc] at this
      simp at this
    · intro hc
      obtain ⟨q, hq, hn⟩ := List.any_eq_true.1 hc
      have := h4 q (List.mem_filter.1 hq).1 (List.mem_filter.1 hq).2
      rw [Option.isNone_iff_eq_none] at hn
      rw [hn] at this
      simp at this

/-- C126: no folder is missed: an output folder whose path contains the data set, type, title and date asked for is found. -/
theorem C126_complete (dateOf : Txt → Option ℕ) (dir : Txt → Option DirTree) (c : SearchSettings) (l : List Txt)
    (h : findFolders dateOf dir c = .ok l) (path d ty ti dt : Txt) (hf : Spec.OutputFolder dir c path) (hd : d ∈ c.datasets)
    (hty : ty ∈ c.types) (hti : ti ∈ c.titles) (hdt : dt ∈ Spec.datesOf c) (hc : Spec.Contains c.group d ty ti dt path) : path ∈ l := by
  refine (C126_found dateOf dir c l h path).2 ⟨hf, d, hd, ty, hty, ti, hti, dt, hdt, dt, ?_, hc⟩
  unfold Spec.DateLike
  cases hl : dt.getLast? with
  | none => simpa using hl
  | some x =>
    refine ⟨1, ?_⟩
    rw [List.getLast?_eq_some_iff] at hl
    obtain ⟨ys, rfl⟩ := hl
    simp

/-- A data set with experiments of three days; `exTime` reads the day. -/
def exDir : Txt → Option DirTree := fun p =>
  if p = "o/d/g".toList then some (.node [] [("SIM_z_4".toList, .node ["config.json".toList] []), ("SIM_z_3".toList, .node ["config.json".toList] []),
    ("NN_z_4".toList, .node ["config.json".toList] []), ("SIM_z_5".toList, .node ["log.txt".toList] [])]) else none

def exTime : Txt → Option ℕ := fun p => p.getLast?.map Char.toNat

def exSearch : SearchSettings := ⟨"o".toList, "g".toList, ["d".toList], ["SIM".toList], [[]], ["z_4".toList], []⟩

example : findFolders exTime exDir exSearch = .ok ["o/d/g/SIM_z_3".toList, "o/d/g/SIM_z_4".toList] := by decide +kernel

/-- C126: the date asked for is not respected: a folder of another date may be found. -/
theorem C126_date_false : ¬ ∀ (dateOf : Txt → Option ℕ) (dir : Txt → Option DirTree) (c : SearchSettings) (l : List Txt) (path : Txt),
    findFolders dateOf dir c = .ok l → path ∈ l → ∃ dt ∈ Spec.datesOf c, dt <:+: path := by
  intro h
  obtain ⟨dt, hdt, hi⟩ := h exTime exDir exSearch ["o/d/g/SIM_z_3".toList, "o/d/g/SIM_z_4".toList] "o/d/g/SIM_z_3".toList
    (by decide +kernel) (by simp)
  have : dt = "z_4".toList := by simpa [Spec.datesOf, exSearch] using hdt
  subst this
  rw [← txtIn_iff] at hi
  revert hi
  decide +kernel

/-- C126: excluding folders is not possible: if anything matches, a request to exclude raises. -/
theorem C126_exclude_rejected (dateOf : Txt → Option ℕ) (dir : Txt → Option DirTree) (c : SearchSettings) (he : c.exclude ≠ [])
    (p : Txt) (h1 : p ∈ c.candidates dir) (h2 : rxSearch c.patterns p = true) : findFolders dateOf dir c = .error .typeError := by
  unfold findFolders
  simp only
  rw [if_pos]
  refine ⟨List.length_pos_of_ne_nil he, ?_⟩
  intro hc
  have := List.mem_filter.2 ⟨h1, h2⟩
  rw [hc] at this
  simp at this

example : findFolders exTime exDir { exSearch with exclude := ["NN".toList] } = .error .typeError := by decide +kernel

/-- C126: without a data set nothing is found. -/
theorem C126_no_dataset (dateOf : Txt → Option ℕ) (dir : Txt → Option DirTree) (c : SearchSettings) (h : c.datasets = []) :
    findFolders dateOf dir c = .error .missingFiles := by
  have : c.candidates dir = [] := by unfold SearchSettings.candidates; rw [h]; rfl
  unfold findFolders
  rw [this]
  simp

/-! ### The order of the directory listing -/

/-- Two directories that differ in the order of their listings only, down to a depth. -/
def Spec.SameListing : Nat → DirTree → DirTree → Prop
  | 0, .node f _, .node f' _ => f.Perm f'
  | n + 1, .node f s, .node f' s' => f.Perm f' ∧ ∃ s'', s''.Perm s' ∧ List.Forall₂ (fun a b => a.1 = b.1 ∧ Spec.SameListing n a.2 b.2) s s''

theorem walkSubs_eq (level : Nat) (root : Txt) (s : List (Txt × DirTree)) :
    walkSubs (level + 1) root s = s.flatMap fun x => walkDirs level (osJoin root x.1) x.2 := by
  induction s with
  | nil => simp [walkSubs]
  | cons a r ih => simp [walkSubs, ih]

theorem any_perm {α : Type} {l l' : List α} (p : α → Bool) (h : l.Perm l') : l.any p = l'.any p := by
  rw [Bool.eq_iff_iff, List.any_eq_true, List.any_eq_true]
  constructor
  · rintro ⟨x, hx, hp⟩; exact ⟨x, h.mem_iff.1 hx, hp⟩
  · rintro ⟨x, hx, hp⟩; exact ⟨x, h.mem_iff.2 hx, hp⟩

theorem walkDirs_perm (p : Txt → Bool) (n : Nat) : ∀ (root : Txt) (t t' : DirTree), Spec.SameListing n t t' →
    ((walkDirs n root t).map fun d => (d.1, d.2.any p)).Perm ((walkDirs n root t').map fun d => (d.1, d.2.any p)) := by
  induction n with
  | zero =>
    rintro root ⟨f, s⟩ ⟨f', s'⟩ h
    simp only [Spec.SameListing] at h
    simp only [walkDirs, walkSubs, List.map_cons, List.map_nil]
    rw [any_perm p h]
  | succ n ih =>
    rintro root ⟨f, s⟩ ⟨f', s'⟩ h
    simp only [Spec.SameListing] at h
    obtain ⟨hf, s'', hp, hall⟩ := h
    simp only [walkDirs, List.map_cons]
    rw [any_perm p hf]
    refine List.Perm.cons _ ?_
    rw [walkSubs_eq, walkSubs_eq]
    have h1 : ((s''.flatMap fun x => walkDirs n (osJoin root x.1) x.2).map fun d => (d.1, d.2.any p)).Perm
        ((s'.flatMap fun x => walkDirs n (osJoin root x.1) x.2).map fun d => (d.1, d.2.any p)) :=
      (hp.flatMap_right _).map _
    refine List.Perm.trans ?_ h1
    clear hp h1
    induction hall with
    | nil => simp
    | @cons a b s s'' hab hall ihs =>
      simp only [List.flatMap_cons, List.map_append]
      refine List.Perm.append ?_ ihs
      rw [hab.1]
      exact ih _ _ _ hab.2

theorem allSubdirs_perm (root : Txt) (t t' : DirTree) (h : Spec.SameListing 2 t t') : (allSubdirs root t).Perm (allSubdirs root t') := by
  have hw := walkDirs_perm (txtIn "config.json".toList) 2 (rstripSep root) t t' h
  have e : ∀ l : List (Txt × List Txt), ((l.filter fun d => d.2.any (txtIn "config.json".toList)).map (·.1)) =
      ((l.map fun d => (d.1, d.2.any (txtIn "config.json".toList))).filter (·.2)).map (·.1) := by
    intro l
    rw [List.filter_map, List.map_map]
    rfl
  unfold allSubdirs
  rw [e, e]
  exact (hw.filter _).map _

/-- C126: the result does not depend on the order in which the operating system lists directories, nor on the order in which data sets
are given. -/
theorem C126_order_irrelevant (dateOf : Txt → Option ℕ) (dir dir' : Txt → Option DirTree) (c : SearchSettings)
    (h : ∀ p, (dir p = none ∧ dir' p = none) ∨ ∃ t t', dir p = some t ∧ dir' p = some t' ∧ Spec.SameListing 2 t t')
    (datasets' : List Txt) (hd : c.datasets.Perm datasets') :
    findFolders dateOf dir c = findFolders dateOf dir' { c with datasets := datasets' } := by
  have hc : c.candidates dir = ({ c with datasets := datasets' } : SearchSettings).candidates dir' := by
    unfold SearchSettings.candidates
    simp only
    refine List.Perm.eq_of_pairwise' (r := fun a b : Txt => txtLe a b = true) (List.pairwise_insertionSort _ _) (List.pairwise_insertionSort _ _) ?_
    refine (List.perm_insertionSort _ _).trans (List.Perm.trans ?_ (List.perm_insertionSort _ _).symm)
    refine List.Perm.trans (l₂ := datasets'.flatMap fun d =>
      match dir (osJoin (osJoin c.out d) c.group) with
      | none => []
      | some t => allSubdirs (osJoin (osJoin c.out d) c.group) t) (hd.flatMap_right _) ?_
    clear hd
    induction datasets' with
    | nil => simp
    | cons d r ih =>
      simp only [List.flatMap_cons]
      refine List.Perm.append ?_ ih
      rcases h (osJoin (osJoin c.out d) c.group) with ⟨h1, h2⟩ | ⟨t, t', h1, h2, hs⟩
      · rw [h1, h2]
      · rw [h1, h2]
        exact allSubdirs_perm _ _ _ hs
  have hp : ∀ s, rxSearch c.patterns s = rxSearch ({ c with datasets := datasets' } : SearchSettings).patterns s := by
    intro s
    rw [Bool.eq_iff_iff, search_patterns, search_patterns]
    simp only [Spec.datesOf]
    constructor
    · rintro ⟨d, hd', r⟩; exact ⟨d, hd.mem_iff.1 hd', r⟩
    · rintro ⟨d, hd', r⟩; exact ⟨d, hd.mem_iff.2 hd', r⟩
  unfold findFolders
  simp only
  rw [← hc]
  have : (c.candidates dir).filter (rxSearch c.patterns) =
      (c.candidates dir).filter (rxSearch ({ c with datasets := datasets' } : SearchSettings).patterns) := by
    congr 1
    funext s
    exact hp s
  rw [this]

example : Spec.SameListing 2 (.node [] [("a".toList, .node [] []), ("b".toList, .node [] [])])
    (.node [] [("b".toList, .node [] []), ("a".toList, .node [] [])]) := by
  refine ⟨.refl _, [("a".toList, .node [] []), ("b".toList, .node [] [])], List.Perm.swap .., ?_⟩
  refine .cons ⟨rfl, .refl _, [], .refl _, .nil⟩ (.cons ⟨rfl, .refl _, [], .refl _, .nil⟩ .nil)

end GeNSIT
