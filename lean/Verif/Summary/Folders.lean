import Mathlib.Data.List.Sort
import Mathlib.Data.List.Infix
import Mathlib.Tactic.Linarith

/-!
# Finding the folders to summarise (`gensit/outputs.py`, `OutputSummary.find_matching_output_folders`)
-/

set_option linter.unusedSimpArgs false
set_option linter.unusedVariables false

namespace GeNSIT

/-- Text as its characters. -/
abbrev Txt := List Char

/-- `os.path.join` of two parts. -/
def osJoin (a b : Txt) : Txt :=
  if b.head? = some '/' then b
  else if a = [] ∨ a.getLast? = some '/' then a ++ b
  else a ++ '/' :: b

/-- `rstrip('/')`. -/
def rstripSep (a : Txt) : Txt := (a.reverse.dropWhile (· == '/')).reverse

/-- A directory: its files and its directories. -/
inductive DirTree where
  | node (files : List Txt) (subs : List (Txt × DirTree))

mutual
/-- `walklevel` (`gensit/utils/misc_utils.py:504-512`): the directories down to `level` below the first, with their files. -/
def walkDirs : Nat → Txt → DirTree → List (Txt × List Txt)
  | level, root, .node files subs => (root, files) :: walkSubs level root subs
/-- The directories inside one. -/
def walkSubs : Nat → Txt → List (Txt × DirTree) → List (Txt × List Txt)
  | 0, _, _ => []
  | _ + 1, _, [] => []
  | level + 1, root, (n, t) :: r => walkDirs level (osJoin root n) t ++ walkSubs (level + 1) root r
end

/-- `x in y` for text. -/
def txtIn (x y : Txt) : Bool := y.tails.any fun t => x.isPrefixOf t

/-- `get_all_subdirectories` (`gensit/utils/misc_utils.py:492-502`): the directories that have a file whose name contains `config.json`. -/
def allSubdirs (root : Txt) (t : DirTree) : List Txt :=
  ((walkDirs 2 (rstripSep root) t).filter fun d => d.2.any (txtIn "config.json".toList)).map (·.1)

/-- The regular expressions that are built (`gensit/outputs.py:2226-2239`): characters, `.*`, and a character followed by `*`. (Names with
characters that are special in regular expressions are not modelled.) -/
inductive RxItem where
  | lit (c : Char)
  | anyStar
  | charStar (c : Char)

/-- The rests of a text after some of the first characters, all satisfying `f`. -/
def starTails (f : Char → Bool) : Txt → List Txt
  | [] => [[]]
  | x :: xs => (x :: xs) :: if f x then starTails f xs else []

/-- Whether some prefix of the text matches. -/
def rxMatch : List RxItem → Txt → Bool
  | [], _ => true
  | .lit c :: p, s =>
    match s with
    | [] => false
    | x :: xs => x == c && rxMatch p xs
  | .anyStar :: p, s => (starTails (fun c => c != '\n') s).any (rxMatch p)
  | .charStar c :: p, s => (starTails (fun x => x == c) s).any (rxMatch p)

/-- `re.search` with several alternatives. -/
def rxSearch (ps : List (List RxItem)) (s : Txt) : Bool := ps.any fun p => s.tails.any (rxMatch p)

/-- A text as an expression. -/
def rxText (s : Txt) : List RxItem := s.map .lit

/-- The part for the type of experiment. -/
def rxType (t : Txt) : List RxItem := if t.length > 0 then rxText t ++ [.anyStar] else []

/-- The part for the title. -/
def rxTitle (t : Txt) : List RxItem := if t.length > 0 then rxText ('_' :: t) ++ [.anyStar] else []

/-- The part for the date: `dt + '*'`, where the star applies to the last character. -/
def rxDate (d : Txt) : List RxItem :=
  match d.getLast? with
  | none => []
  | some c => rxText d.dropLast ++ [.charStar c]

/-- One pattern (`gensit/outputs.py:2229-2239`). -/
def folderPattern (dataset group type title date : Txt) : List RxItem :=
  rxText (osJoin (osJoin dataset group) []) ++ (rxType type ++ (rxTitle title ++ rxDate date))

/-- The settings of the search; `exclude` is the tuple given on the command line. -/
structure SearchSettings where
  out : Txt
  group : Txt
  datasets : List Txt
  types : List Txt
  titles : List Txt
  dates : List Txt
  exclude : List Txt

/-- All patterns. -/
def SearchSettings.patterns (c : SearchSettings) : List (List RxItem) :=
  c.datasets.flatMap fun d => c.types.flatMap fun ty => c.titles.flatMap fun ti =>
    (if c.dates.length ≤ 0 then [[]] else c.dates).map fun dt => folderPattern d c.group ty ti dt

/-- Order of text by code points. -/
def txtLe : Txt → Txt → Bool
  | [], _ => true
  | _ :: _, [] => false
  | a :: as, b :: bs => a.toNat < b.toNat || (a.toNat == b.toNat && txtLe as bs)

inductive FindErr where
  | missingFiles
  | typeError
  | noDate
deriving DecidableEq

/-- The candidates (`gensit/outputs.py:2242-2270`): `dir` is the directory at a path, if there is one. -/
def SearchSettings.candidates (c : SearchSettings) (dir : Txt → Option DirTree) : List Txt :=
  ((c.datasets.flatMap fun d =>
    match dir (osJoin (osJoin c.out d) c.group) with
    | none => []
    | some t => allSubdirs (osJoin (osJoin c.out d) c.group) t).insertionSort fun a b => txtLe a b = true)

/-- The search (`gensit/outputs.py:2211-2298`). `dateOf` is the time found in a path (`none` if there is none or it is no time). With a
non-empty `exclude` each test `tuple not in str` raises. -/
def findFolders (dateOf : Txt → Option ℕ) (dir : Txt → Option DirTree) (c : SearchSettings) : Except FindErr (List Txt) :=
  let found := (c.candidates dir).filter (rxSearch c.patterns)
  if c.exclude.length > 0 ∧ found ≠ [] then .error .typeError
  else
    if found.any (fun x => (dateOf x).isNone) then .error .noDate
    else
      let sorted := found.insertionSort fun a b => (dateOf a).getD 0 ≤ (dateOf b).getD 0
      if sorted.length = 0 then .error .missingFiles else .ok sorted

/-- Given directories (`gensit/outputs.py:2199-2210`, `2291-2298`). -/
def givenFolders (exists_ : Txt → Bool) (out : Txt) (datasets directories : List Txt) : Except FindErr (List Txt) :=
  let found := (datasets.flatMap fun d => directories.map fun x => osJoin (osJoin out d) x).filter exists_
  if found.length = 0 then .error .missingFiles else .ok found

/-! ## Specification -/

/-- A directory at most `n` levels below. -/
inductive Spec.Below : Nat → Txt → DirTree → Txt → List Txt → Prop where
  | here {n root files subs} : Spec.Below n root (.node files subs) root files
  | down {n root files subs name t path fs} (hm : (name, t) ∈ subs) (h : Spec.Below n (osJoin root name) t path fs) :
      Spec.Below (n + 1) root (.node files subs) path fs

/-- A folder of outputs of a data set: at most two levels below `out/dataset/group`, with a file whose name contains `config.json`. -/
def Spec.OutputFolder (dir : Txt → Option DirTree) (c : SearchSettings) (path : Txt) : Prop :=
  ∃ d ∈ c.datasets, ∃ t files file, dir (osJoin (osJoin c.out d) c.group) = some t ∧
    Spec.Below 2 (rstripSep (osJoin (osJoin c.out d) c.group)) t path files ∧ file ∈ files ∧ "config.json".toList <:+: file

/-- The path contains `dataset/group/`, then `type` and anything, then `_title` and anything, then `date` (those that are not empty). -/
def Spec.Contains (group dataset type title : Txt) (date path : Txt) : Prop :=
  ∃ before a b after, path = before ++ (osJoin (osJoin dataset group) [] ++ (a ++ (b ++ (date ++ after)))) ∧
    (if type = [] then a = [] else ∃ w, a = type ++ w ∧ '\n' ∉ w) ∧ (if title = [] then b = [] else ∃ w, b = '_' :: title ++ w ∧ '\n' ∉ w)

/-- What the code takes for the date: the date without its last character, then the last character any number of times. -/
def Spec.DateLike (date text : Txt) : Prop :=
  match date.getLast? with
  | none => text = []
  | some c => ∃ n, text = date.dropLast ++ List.replicate n c

/-! ## Lemmas -/

mutual
theorem mem_walkDirs : ∀ (t : DirTree) (level : Nat) (root path : Txt) (files : List Txt),
    (path, files) ∈ walkDirs level root t ↔ Spec.Below level root t path files
  | .node fs subs, level, root, path, files => by
    simp only [walkDirs, List.mem_cons, Prod.mk.injEq]
    constructor
    · rintro (⟨rfl, rfl⟩ | h)
      · exact .here
      · cases level with
        | zero => simp [walkSubs] at h
        | succ level =>
          obtain ⟨name, t, hm, hb⟩ := (mem_walkSubs subs level root path files).1 h
          exact .down hm hb
    · intro h
      cases h with
      | here => exact Or.inl ⟨rfl, rfl⟩
      | down hm hb => exact Or.inr ((mem_walkSubs subs _ root path files).2 ⟨_, _, hm, hb⟩)
theorem mem_walkSubs : ∀ (subs : List (Txt × DirTree)) (level : Nat) (root path : Txt) (files : List Txt),
    (path, files) ∈ walkSubs (level + 1) root subs ↔ ∃ name t, (name, t) ∈ subs ∧ Spec.Below level (osJoin root name) t path files
  | [], level, root, path, files => by simp [walkSubs]
  | (n, t) :: r, level, root, path, files => by
    simp only [walkSubs, List.mem_append]
    rw [mem_walkDirs t level (osJoin root n) path files, mem_walkSubs r level root path files]
    constructor
    · rintro (h | ⟨name, t', hm, hb⟩)
      · exact ⟨n, t, by simp, h⟩
      · exact ⟨name, t', by simp [hm], hb⟩
    · rintro ⟨name, t', hm, hb⟩
      rcases List.mem_cons.1 hm with e | hm
      · simp only [Prod.mk.injEq] at e
        obtain ⟨rfl, rfl⟩ := e
        exact Or.inl hb
      · exact Or.inr ⟨name, t', hm, hb⟩
end

theorem txtIn_iff (x y : Txt) : txtIn x y = true ↔ x <:+: y := by
  unfold txtIn
  rw [List.any_eq_true]
  constructor
  · rintro ⟨t, ht, hp⟩
    rw [List.isPrefixOf_iff_prefix] at hp
    rw [List.mem_tails] at ht
    exact hp.isInfix.trans ht.isInfix
  · rintro ⟨u, v, e⟩
    refine ⟨x ++ v, ?_, ?_⟩
    · rw [List.mem_tails]; exact ⟨u, by rw [← e]; simp⟩
    · rw [List.isPrefixOf_iff_prefix]; exact ⟨v, rfl⟩

theorem mem_starTails (f : Char → Bool) (s t : Txt) : t ∈ starTails f s ↔ ∃ w, s = w ++ t ∧ ∀ c ∈ w, f c = true := by
  induction s with
  | nil =>
    simp only [starTails, List.mem_singleton]
    constructor
    · rintro rfl; exact ⟨[], by simp⟩
    · rintro ⟨w, h, _⟩
      have := List.append_eq_nil_iff.1 h.symm
      exact this.2
  | cons x xs ih =>
    simp only [starTails, List.mem_cons]
    constructor
    · rintro (rfl | h)
      · exact ⟨[], by simp⟩
      · split at h
        · rename_i hx
          obtain ⟨w, rfl, hw⟩ := ih.1 h
          refine ⟨x :: w, by simp, ?_⟩
          intro c hc
          rcases List.mem_cons.1 hc with rfl | hc
          · exact hx
          · exact hw c hc
        · simp at h
    · rintro ⟨w, h, hw⟩
      cases w with
      | nil => exact Or.inl h.symm
      | cons y ys =>
        simp only [List.cons_append, List.cons.injEq] at h
        obtain ⟨rfl, rfl⟩ := h
        right
        rw [if_pos (hw x (by simp))]
        exact ih.2 ⟨ys, rfl, fun c hc => hw c (by simp [hc])⟩

/-- The texts an expression stands for. -/
def rxFull : List RxItem → Txt → Prop
  | [], a => a = []
  | .lit c :: p, a => ∃ a', a = c :: a' ∧ rxFull p a'
  | .anyStar :: p, a => ∃ w a', a = w ++ a' ∧ '\n' ∉ w ∧ rxFull p a'
  | .charStar c :: p, a => ∃ n a', a = List.replicate n c ++ a' ∧ rxFull p a'

theorem rxMatch_iff (p : List RxItem) (s : Txt) : rxMatch p s = true ↔ ∃ a b, s = a ++ b ∧ rxFull p a := by
  induction p generalizing s with
  | nil => simp only [rxMatch, true_iff]; exact ⟨[], s, by simp, rfl⟩
  | cons i p ih =>
    cases i with
    | lit c =>
      cases s with
      | nil =>
        simp only [rxMatch, rxFull, Bool.false_eq_true, false_iff]
        rintro ⟨a, b, h, a', rfl, _⟩
        simp at h
      | cons x xs =>
        simp only [rxMatch, rxFull, Bool.and_eq_true, beq_iff_eq, ih]
        constructor
        · rintro ⟨rfl, a, b, rfl, hf⟩
          exact ⟨x :: a, b, by simp, a, rfl, hf⟩
        · rintro ⟨a, b, h, a', rfl, hf⟩
          simp only [List.cons_append, List.cons.injEq] at h
          exact ⟨h.1, a', b, h.2, hf⟩
    | anyStar =>
      simp only [rxMatch, rxFull, List.any_eq_true, mem_starTails, ih]
      constructor
      · rintro ⟨t, ⟨w, rfl, hw⟩, a, b, rfl, hf⟩
        refine ⟨w ++ a, b, by simp, w, a, rfl, ?_, hf⟩
        intro hc
        have := hw _ hc
        simp at this
      · rintro ⟨a, b, rfl, w, a', rfl, hw, hf⟩
        refine ⟨a' ++ b, ⟨w, by simp, ?_⟩, a', b, rfl, hf⟩
        intro c hc
        have : c ≠ '\n' := by rintro rfl; exact hw hc
        simp [this]
    | charStar c =>
      simp only [rxMatch, rxFull, List.any_eq_true, mem_starTails, ih]
      constructor
      · rintro ⟨t, ⟨w, rfl, hw⟩, a, b, rfl, hf⟩
        refine ⟨w ++ a, b, by simp, w.length, a, ?_, hf⟩
        congr 1
        exact List.eq_replicate_of_mem fun x hx => by simpa using hw x hx
      · rintro ⟨a, b, rfl, n, a', rfl, hf⟩
        refine ⟨a' ++ b, ⟨List.replicate n c, by simp, ?_⟩, a', b, rfl, hf⟩
        intro x hx
        simp [List.eq_of_mem_replicate hx]

theorem rxFull_append (p q : List RxItem) (s : Txt) : rxFull (p ++ q) s ↔ ∃ a b, s = a ++ b ∧ rxFull p a ∧ rxFull q b := by
  induction p generalizing s with
  | nil =>
    simp only [List.nil_append, rxFull]
    constructor
    · intro h; exact ⟨[], s, by simp, rfl, h⟩
    · rintro ⟨a, b, rfl, rfl, h⟩; simpa using h
  | cons i p ih =>
    cases i with
    | lit c =>
      simp only [List.cons_append, rxFull, ih]
      constructor
      · rintro ⟨a', rfl, a, b, rfl, h1, h2⟩
        exact ⟨c :: a, b, by simp, ⟨a, rfl, h1⟩, h2⟩
      · rintro ⟨a, b, rfl, ⟨a', rfl, h1⟩, h2⟩
        exact ⟨a' ++ b, by simp, a', b, rfl, h1, h2⟩
    | anyStar =>
      simp only [List.cons_append, rxFull, ih]
      constructor
      · rintro ⟨w, a', rfl, hw, a, b, rfl, h1, h2⟩
        exact ⟨w ++ a, b, by simp, ⟨w, a, rfl, hw, h1⟩, h2⟩
      · rintro ⟨a, b, rfl, ⟨w, a', rfl, hw, h1⟩, h2⟩
        exact ⟨w, a' ++ b, by simp, hw, a', b, rfl, h1, h2⟩
    | charStar c =>
      simp only [List.cons_append, rxFull, ih]
      constructor
      · rintro ⟨n, a', rfl, a, b, rfl, h1, h2⟩
        exact ⟨List.replicate n c ++ a, b, by simp, ⟨n, a, rfl, h1⟩, h2⟩
      · rintro ⟨a, b, rfl, ⟨n, a', rfl, h1⟩, h2⟩
        exact ⟨n, a' ++ b, by simp, a', b, rfl, h1, h2⟩

theorem rxFull_text (t s : Txt) : rxFull (rxText t) s ↔ s = t := by
  induction t generalizing s with
  | nil => rfl
  | cons c t ih =>
    show (∃ a', s = c :: a' ∧ rxFull (rxText t) a') ↔ _
    simp only [ih]
    constructor
    · rintro ⟨a', rfl, rfl⟩; rfl
    · rintro rfl; exact ⟨t, rfl, rfl⟩

theorem rxFull_type (t s : Txt) : rxFull (rxType t) s ↔ if t = [] then s = [] else ∃ w, s = t ++ w ∧ '\n' ∉ w := by
  unfold rxType
  by_cases h : t = []
  · subst h; simp [rxFull]
  · rw [if_pos (List.length_pos_of_ne_nil h), if_neg h, rxFull_append]
    constructor
    · rintro ⟨a, b, rfl, h1, w, b', rfl, hw, h2⟩
      simp only [rxFull] at h2
      subst h2
      rw [(rxFull_text _ _).1 h1]
      exact ⟨w, by simp, hw⟩
    · rintro ⟨w, rfl, hw⟩
      exact ⟨t, w, rfl, (rxFull_text _ _).2 rfl, w, [], by simp, hw, rfl⟩

theorem rxFull_title (t s : Txt) : rxFull (rxTitle t) s ↔ if t = [] then s = [] else ∃ w, s = '_' :: t ++ w ∧ '\n' ∉ w := by
  unfold rxTitle
  by_cases h : t = []
  · subst h; simp [rxFull]
  · rw [if_pos (List.length_pos_of_ne_nil h), if_neg h, rxFull_append]
    constructor
    · rintro ⟨a, b, rfl, h1, w, b', rfl, hw, h2⟩
      simp only [rxFull] at h2
      subst h2
      rw [(rxFull_text _ _).1 h1]
      exact ⟨w, by simp, hw⟩
    · rintro ⟨w, rfl, hw⟩
      exact ⟨'_' :: t, w, rfl, (rxFull_text _ _).2 rfl, w, [], by simp, hw, rfl⟩

theorem rxFull_date (d s : Txt) : rxFull (rxDate d) s ↔ Spec.DateLike d s := by
  unfold rxDate Spec.DateLike
  cases d.getLast? with
  | none => rfl
  | some c =>
    simp only [rxFull_append]
    constructor
    · rintro ⟨a, b, rfl, h1, n, b', rfl, h2⟩
      simp only [rxFull] at h2
      subst h2
      exact ⟨n, by rw [(rxFull_text _ _).1 h1]; simp⟩
    · rintro ⟨n, rfl⟩
      exact ⟨d.dropLast, List.replicate n c, rfl, (rxFull_text _ _).2 rfl, n, [], by simp, rfl⟩

/-- A path matches a pattern exactly if it contains its parts, with something like the date. -/
theorem search_iff (group dataset type title date path : Txt) :
    (path.tails.any (rxMatch (folderPattern dataset group type title date))) = true ↔
      ∃ text, Spec.DateLike date text ∧ Spec.Contains group dataset type title text path := by
  rw [List.any_eq_true]
  simp only [rxMatch_iff, folderPattern, rxFull_append, rxFull_text, rxFull_type, rxFull_title, rxFull_date, Spec.Contains]
  constructor
  · rintro ⟨t, ht, x, after, rfl, _, y, rfl, rfl, a, z, rfl, ha, b, text, rfl, hb, hd⟩
    rw [List.mem_tails] at ht
    obtain ⟨before, e⟩ := ht
    exact ⟨text, hd, before, a, b, after, by rw [← e]; simp, ha, hb⟩
  · rintro ⟨text, hd, before, a, b, after, rfl, ha, hb⟩
    refine ⟨osJoin (osJoin dataset group) [] ++ (a ++ (b ++ (text ++ after))), ?_, osJoin (osJoin dataset group) [] ++ (a ++ (b ++ text)), after, by simp,
      _, _, rfl, rfl, a, b ++ text, rfl, ha, b, text, rfl, hb, hd⟩
    rw [List.mem_tails]
    exact ⟨before, rfl⟩

theorem mem_candidates (dir : Txt → Option DirTree) (c : SearchSettings) (path : Txt) :
    path ∈ c.candidates dir ↔ Spec.OutputFolder dir c path := by
  unfold SearchSettings.candidates
  rw [List.mem_insertionSort]
  simp only [List.mem_flatMap]
  constructor
  · rintro ⟨d, hd, h⟩
    cases hdir : dir (osJoin (osJoin c.out d) c.group) with
    | none => rw [hdir] at h; simp at h
    | some t =>
      rw [hdir] at h
      simp only [allSubdirs, List.mem_map, List.mem_filter] at h
      obtain ⟨⟨p, files⟩, ⟨hm, ha⟩, rfl⟩ := h
      rw [List.any_eq_true] at ha
      obtain ⟨file, hf, hi⟩ := ha
      exact ⟨d, hd, t, files, file, hdir, (mem_walkDirs t 2 _ _ _).1 hm, hf, (txtIn_iff _ _).1 hi⟩
  · rintro ⟨d, hd, t, files, file, hdir, hb, hf, hi⟩
    refine ⟨d, hd, ?_⟩
    rw [hdir]
    simp only [allSubdirs, List.mem_map, List.mem_filter]
    exact ⟨(path, files), ⟨(mem_walkDirs t 2 _ _ _).2 hb, List.any_eq_true.2 ⟨file, hf, (txtIn_iff _ _).2 hi⟩⟩, rfl⟩

/-- The dates the search uses. -/
def Spec.datesOf (c : SearchSettings) : List Txt := if c.dates = [] then [[]] else c.dates

theorem search_patterns (c : SearchSettings) (path : Txt) :
    rxSearch c.patterns path = true ↔ ∃ d ∈ c.datasets, ∃ ty ∈ c.types, ∃ ti ∈ c.titles, ∃ dt ∈ Spec.datesOf c, ∃ text,
      Spec.DateLike dt text ∧ Spec.Contains c.group d ty ti text path := by
  unfold rxSearch SearchSettings.patterns
  rw [List.any_eq_true]
  simp only [List.mem_flatMap, List.mem_map]
  have hd : (if c.dates.length ≤ 0 then [[]] else c.dates) = Spec.datesOf c := by
    unfold Spec.datesOf
    by_cases h : c.dates = []
    · simp [h]
    · rw [if_neg h, if_neg (by simpa using h)]
  rw [hd]
  constructor
  · rintro ⟨p, ⟨d, hd, ty, hty, ti, hti, dt, hdt, rfl⟩, h⟩
    exact ⟨d, hd, ty, hty, ti, hti, dt, hdt, (search_iff ..).1 h⟩
  · rintro ⟨d, hd, ty, hty, ti, hti, dt, hdt, h⟩
    exact ⟨_, ⟨d, hd, ty, hty, ti, hti, dt, hdt, rfl⟩, (search_iff ..).2 h⟩

theorem txtLe_total (a b : Txt) : txtLe a b = true ∨ txtLe b a = true := by
  induction a generalizing b with
  | nil => exact Or.inl rfl
  | cons x xs ih =>
    cases b with
    | nil => exact Or.inr rfl
    | cons y ys =>
      simp only [txtLe, Bool.or_eq_true, decide_eq_true_eq, Bool.and_eq_true, beq_iff_eq]
      rcases lt_trichotomy x.toNat y.toNat with h | h | h
      · exact Or.inl (Or.inl h)
      · rcases ih ys with h' | h'
        · exact Or.inl (Or.inr ⟨h, h'⟩)
        · exact Or.inr (Or.inr ⟨h.symm, h'⟩)
      · exact Or.inr (Or.inl h)

theorem txtLe_trans {a b c : Txt} (h1 : txtLe a b = true) (h2 : txtLe b c = true) : txtLe a c = true := by
  induction a generalizing b c with
  | nil => rfl
  | cons x xs ih =>
    cases b with
    | nil => simp [txtLe] at h1
    | cons y ys =>
      cases c with
      | nil => simp [txtLe] at h2
      | cons z zs =>
        simp only [txtLe, Bool.or_eq_true, decide_eq_true_eq, Bool.and_eq_true, beq_iff_eq] at h1 h2 ⊢
        rcases h1 with h1 | ⟨h1, h1'⟩
        · rcases h2 with h2 | ⟨h2, _⟩
          · exact Or.inl (lt_trans h1 h2)
          · exact Or.inl (h2 ▸ h1)
        · rcases h2 with h2 | ⟨h2, h2'⟩
          · exact Or.inl (h1 ▸ h2)
          · exact Or.inr ⟨h1.trans h2, ih h1' h2'⟩

theorem txtLe_antisymm {a b : Txt} (h1 : txtLe a b = true) (h2 : txtLe b a = true) : a = b := by
  induction a generalizing b with
  | nil => cases b with
    | nil => rfl
    | cons y ys => simp [txtLe] at h2
  | cons x xs ih =>
    cases b with
    | nil => simp [txtLe] at h1
    | cons y ys =>
      simp only [txtLe, Bool.or_eq_true, decide_eq_true_eq, Bool.and_eq_true, beq_iff_eq] at h1 h2
      rcases h1 with h1 | ⟨h1, h1'⟩
      · rcases h2 with h2 | ⟨h2, _⟩
        · exact absurd h1 (lt_asymm h2)
        · rw [h2] at h1; exact absurd h1 (lt_irrefl _)
      · rcases h2 with h2 | ⟨_, h2'⟩
        · rw [h1] at h2; exact absurd h2 (lt_irrefl _)
        · rw [Char.toNat_inj.1 h1, ih h1' h2']

instance : Std.Total (fun a b : Txt => txtLe a b = true) := ⟨txtLe_total⟩
instance : IsTrans Txt (fun a b => txtLe a b = true) := ⟨fun _ _ _ => txtLe_trans⟩
instance : Std.Antisymm (fun a b : Txt => txtLe a b = true) := ⟨fun _ _ => txtLe_antisymm⟩

/-- Sorting by a key keeps the order of elements with the same key. -/
theorem insertionSort_stable {α : Type} (key : α → ℕ) (le : α → α → Prop) (l : List α) (h : l.Pairwise le) :
    (l.insertionSort fun a b => key a ≤ key b).Pairwise fun a b => key a < key b ∨ (key a = key b ∧ le a b) := by
  induction l with
  | nil => simp
  | cons a l ih =>
    rw [List.pairwise_cons] at h
    have hs := ih h.2
    have hmem : ∀ x ∈ l.insertionSort (fun a b => key a ≤ key b), le a x := fun x hx => h.1 x ((List.mem_insertionSort _).1 hx)
    rw [List.insertionSort_cons]
    generalize l.insertionSort (fun a b => key a ≤ key b) = s at hs hmem
    clear ih h
    induction s with
    | nil => simp
    | cons b s ihs =>
      rw [List.pairwise_cons] at hs
      simp only [List.orderedInsert]
      split
      · rename_i hab
        rw [List.pairwise_cons]
        refine ⟨?_, List.pairwise_cons.2 hs⟩
        intro x hx
        have hbx : key b ≤ key x := by
          rcases List.mem_cons.1 hx with rfl | hx
          · exact le_refl _
          · rcases hs.1 x hx with h | h <;> omega
        rcases Nat.lt_or_ge (key a) (key x) with h | h
        · exact Or.inl h
        · exact Or.inr ⟨by omega, hmem x hx⟩
      · rename_i hab
        rw [List.pairwise_cons]
        refine ⟨?_, ihs hs.2 fun x hx => hmem x (by simp [hx])⟩
        intro x hx
        rcases List.mem_cons.1 ((List.perm_orderedInsert _ _ _).mem_iff.1 hx) with rfl | hx
        · left; omega
        · exact hs.1 x hx

end GeNSIT
