import Verif.Utils.Lemmas

/-!
# C108, C109: option values with a syntax of their own

Model of `evaluate_kwargs_callback` and `unpack_statistics` of `/repo/gensit/utils/click_parsers.py` and of the sample
names of `update_settings` (`/repo/gensit/main.py:29-35`).
-/

namespace GeNSIT

/-- `s.strip(' ')`. -/
def stripSpaces (s : List Char) : List Char :=
  (((s.dropWhile (· == ' ')).reverse).dropWhile (· == ' ')).reverse

/-- `s.split(sep, 1)` when the separator occurs, `none` when it does not. -/
def splitOnce (sep : Char) : List Char → Option (List Char × List Char)
  | [] => none
  | c :: cs => if c = sep then some ([], cs) else (splitOnce sep cs).map fun e => (c :: e.1, e.2)

/-- One argument of `evaluate_kwargs_callback` (`click_parsers.py:35-41`). -/
def parseKwarg (s : List Char) : List Char × List Char :=
  match splitOnce '=' s with
  | some (k, v) => (stripSpaces k, stripSpaces v)
  | none => (stripSpaces s, stripSpaces s)

/-- The names of the samples to load (`main.py:29-35`); the order of the Python set is left open by the theorems. -/
def sampleNames (known : List (List Char)) (kwargs : List (List Char)) : List (List Char) :=
  ((kwargs.map parseKwarg).map Prod.fst).eraseDups.filter fun n => decide (n ∈ known)

/-- One statistic with the dimensions over which it is taken (`None` if there are none). -/
abbrev StatItem := List Char × Option (List (List Char))

/-- The statistics that one use of `--statistic METRIC STAT DIM` stands for (`click_parsers.py:139-176`); `none` = the
assertion on the number of `&`-separated pieces fails. -/
def parseStatistic (stat dim : List Char) : Option (List (List StatItem)) :=
  let ss := pySplit '&' stat
  let ds := pySplit '&' dim
  if ss.length = ds.length then
    some (ss.zipWith (fun s d =>
      (pySplit '|' s).zip ((pySplit '|' d).map fun x => if x.length > 0 then some (pySplit '+' x) else none)) ds)
  else none

/-- What the dictionary holds for a metric: a list whose entries are groups of statistics, or, when the option is
repeated, lists of groups. -/
inductive StatEntry where
  | group (g : List StatItem)
  | groups (gs : List (List StatItem))
  deriving DecidableEq

/-- `statistics[metric] = value` / `statistics[metric].append(value)` (`click_parsers.py:178-182`). -/
def addStatistic : List (List Char × List StatEntry) → List Char → List (List StatItem) → List (List Char × List StatEntry)
  | [], m, gs => [(m, gs.map StatEntry.group)]
  | (m', es) :: rest, m, gs =>
    if m = m' then (m', es ++ [.groups gs]) :: rest else (m', es) :: addStatistic rest m gs

/-- `unpack_statistics` (`click_parsers.py:136-183`) for string arguments. -/
def unpackStatistics : List (List Char × List Char × List Char) → List (List Char × List StatEntry) →
    Option (List (List Char × List StatEntry))
  | [], acc => some acc
  | (m, s, d) :: rest, acc => do
    let gs ← parseStatistic s d
    unpackStatistics rest (addStatistic acc m gs)

namespace Spec

/-- No space at either end. -/
def Trimmed (s : List Char) : Prop := s.head? ≠ some ' ' ∧ s.getLast? ≠ some ' '

/-- Only spaces. -/
def Blank (s : List Char) : Prop := ∀ c ∈ s, c = ' '

/-- How a user writes the dimensions of one statistic. -/
def writeDims : Option (List (List Char)) → List Char
  | none => []
  | some ds => pyJoin '+' ds

/-- How a user writes the two arguments of `--statistic`: groups are separated by `&`, the statistics of a group by `|`,
the dimensions of a statistic by `+`. -/
def writeStats (gs : List (List StatItem)) : List Char × List Char :=
  (pyJoin '&' (gs.map fun g => pyJoin '|' (g.map Prod.fst)),
   pyJoin '&' (gs.map fun g => pyJoin '|' (g.map fun i => writeDims i.2)))

/-- A name without any of the three separators. -/
def PlainName (s : List Char) : Prop := '&' ∉ s ∧ '|' ∉ s ∧ '+' ∉ s

/-- Statistics that can be written: no empty group, no separator in a name, dimensions given are not empty. -/
def Writable (gs : List (List StatItem)) : Prop :=
  gs ≠ [] ∧ ∀ g ∈ gs, g ≠ [] ∧ ∀ i ∈ g, PlainName i.1 ∧ ∀ ds, i.2 = some ds → ds ≠ [] ∧ ∀ d ∈ ds, d ≠ [] ∧ PlainName d

end Spec

open Spec

/-! ### helper lemmas -/

theorem dropWhile_blank (a s : List Char) (ha : Blank a) (hs : s.head? ≠ some ' ') :
    (a ++ s).dropWhile (· == ' ') = s := by
  induction a with
  | nil =>
    cases s with
    | nil => rfl
    | cons c s => simp at hs; simp [hs]
  | cons c a ih =>
    have hc : c = ' ' := ha c (by simp)
    subst hc
    rw [List.cons_append, List.dropWhile_cons, if_pos (by simp)]
    exact ih (fun x hx => ha x (by simp [hx]))

theorem strip_unique (a s b : List Char) (ha : Blank a) (hb : Blank b) (hs : Trimmed s) :
    stripSpaces (a ++ s ++ b) = s := by
  by_cases h0 : s = []
  · subst h0
    have : Blank (a ++ [] ++ b) := by
      intro c hc
      simp only [List.append_nil, List.mem_append] at hc
      rcases hc with h | h
      · exact ha c h
      · exact hb c h
    unfold stripSpaces
    rw [show a ++ [] ++ b = (a ++ [] ++ b) ++ [] by simp, dropWhile_blank _ [] this (by simp)]
    rfl
  · unfold stripSpaces
    have h1 : (s ++ b).head? ≠ some ' ' := by
      cases s with
      | nil => exact absurd rfl h0
      | cons c s => simpa using hs.1
    rw [List.append_assoc, dropWhile_blank a (s ++ b) ha h1, List.reverse_append,
      dropWhile_blank b.reverse s.reverse (fun c hc => hb c (by simpa using hc)) (by simpa using hs.2), List.reverse_reverse]

theorem dropWhile_decomp (s : List Char) : ∃ a t, Blank a ∧ s = a ++ t ∧ t.head? ≠ some ' ' ∧ s.dropWhile (· == ' ') = t := by
  induction s with
  | nil => exact ⟨[], [], by simp [Blank], rfl, by simp, rfl⟩
  | cons c s ih =>
    by_cases hc : c = ' '
    · subst hc
      obtain ⟨a, t, h1, h2, h3, h4⟩ := ih
      refine ⟨' ' :: a, t, ?_, by rw [h2]; rfl, h3, ?_⟩
      · intro x hx
        rcases List.mem_cons.mp hx with h | h
        · exact h
        · exact h1 x h
      · rw [List.dropWhile_cons, if_pos (by simp)]; exact h4
    · exact ⟨[], c :: s, by simp [Blank], rfl, by simpa using hc, by rw [List.dropWhile_cons, if_neg (by simpa using hc)]⟩

theorem strip_spec (s : List Char) : ∃ a b, Blank a ∧ Blank b ∧ s = a ++ stripSpaces s ++ b ∧ Trimmed (stripSpaces s) := by
  obtain ⟨a, t, ha, hs, ht, _⟩ := dropWhile_decomp s
  obtain ⟨b, u, hb, hu, hu2, _⟩ := dropWhile_decomp t.reverse
  have ht' : t = u.reverse ++ b.reverse := by
    rw [← List.reverse_reverse t, hu, List.reverse_append]
  have htrim : Trimmed u.reverse := by
    constructor
    · intro h
      refine ht ?_
      rw [ht']
      cases hur : u.reverse with
      | nil => rw [hur] at h; simp at h
      | cons x xs => rw [hur] at h; simpa using h
    · simpa using hu2
  have hb' : Blank b.reverse := fun c hc => hb c (by simpa using hc)
  have hstrip : stripSpaces s = u.reverse := by
    rw [hs, ht', ← List.append_assoc]; exact strip_unique a _ _ ha hb' htrim
  exact ⟨a, b.reverse, ha, hb', by rw [hstrip, List.append_assoc, ← ht', hs], hstrip ▸ htrim⟩

theorem splitOnce_append (sep : Char) (k v : List Char) (h : sep ∉ k) : splitOnce sep (k ++ sep :: v) = some (k, v) := by
  induction k with
  | nil => simp [splitOnce]
  | cons c k ih =>
    simp only [List.mem_cons, not_or] at h
    simp [splitOnce, Ne.symm h.1, ih h.2]

theorem splitOnce_none (sep : Char) (s : List Char) (h : sep ∉ s) : splitOnce sep s = none := by
  induction s with
  | nil => rfl
  | cons c s ih =>
    simp only [List.mem_cons, not_or] at h
    simp [splitOnce, Ne.symm h.1, ih h.2]

/-! ### C108 -/

/-- **C108** `--evaluation_kwargs "key = value"` is read as that key and that value, for every key without `=` and every
value, spaces around them not counting.  The value may contain `=` itself. -/
theorem C108_key_value (k v a b c d : List Char) (hk : '=' ∉ k) (htk : Trimmed k) (htv : Trimmed v)
    (ha : Blank a) (hb : Blank b) (hc : Blank c) (hd : Blank d) :
    parseKwarg ((a ++ k ++ b) ++ '=' :: (c ++ v ++ d)) = (k, v) := by
  have hblank : ∀ x : List Char, Blank x → '=' ∉ x := fun x hx hm => absurd (hx _ hm) (by decide)
  have : '=' ∉ a ++ k ++ b := by
    simp only [List.mem_append, not_or]
    exact ⟨⟨hblank a ha, hk⟩, hblank b hb⟩
  unfold parseKwarg
  rw [splitOnce_append '=' _ _ this]
  simp only [strip_unique a k b ha hb htk, strip_unique c v d hc hd htv]

/-- **C108** An argument without `=` stands for itself: the name is also the expression. -/
theorem C108_name_only (s a b : List Char) (hs : '=' ∉ s) (ht : Trimmed s) (ha : Blank a) (hb : Blank b) :
    parseKwarg (a ++ s ++ b) = (s, s) := by
  have hblank : ∀ x : List Char, Blank x → '=' ∉ x := fun x hx hm => absurd (hx _ hm) (by decide)
  have : '=' ∉ a ++ s ++ b := by
    simp only [List.mem_append, not_or]
    exact ⟨⟨hblank a ha, hs⟩, hblank b hb⟩
  unfold parseKwarg
  rw [splitOnce_none '=' _ this]
  simp only [strip_unique a s b ha hb ht]

/-- **C108** Whatever the argument, the key is free of `=` and neither part has spaces around it. -/
theorem C108_always_trimmed (s : List Char) :
    '=' ∉ (parseKwarg s).1 ∧ Trimmed (parseKwarg s).1 ∧ Trimmed (parseKwarg s).2 := by
  have hsub : ∀ x : List Char, '=' ∉ x → '=' ∉ stripSpaces x := by
    intro x hx hm
    obtain ⟨a, b, -, -, h, -⟩ := strip_spec x
    rw [h] at hx
    exact hx (by simp [hm])
  have htr : ∀ x, Trimmed (stripSpaces x) := fun x => by obtain ⟨a, b, -, -, -, h⟩ := strip_spec x; exact h
  unfold parseKwarg
  by_cases h : '=' ∈ s
  · obtain ⟨k, v, rfl, hk⟩ : ∃ k v, s = k ++ '=' :: v ∧ '=' ∉ k := List.eq_append_cons_of_mem h
    rw [splitOnce_append '=' k v hk]
    exact ⟨hsub k hk, htr k, htr v⟩
  · rw [splitOnce_none '=' s h]
    exact ⟨hsub s h, htr s, htr s⟩

/-- **C108** The samples that are loaded are the known data names among the keys of the arguments, each once. -/
theorem C108_samples (known kwargs : List (List Char)) :
    (sampleNames known kwargs).Nodup ∧
    ∀ n, n ∈ sampleNames known kwargs ↔ n ∈ known ∧ ∃ s ∈ kwargs, (parseKwarg s).1 = n := by
  have nodup_eraseDups : ∀ (n : Nat) (l : List (List Char)), l.length ≤ n → l.eraseDups.Nodup := by
    intro n
    induction n with
    | zero => intro l hl; cases l with | nil => simp [List.eraseDups_nil] | cons _ _ => simp at hl
    | succ n ih =>
      intro l hl
      cases l with
      | nil => simp [List.eraseDups_nil]
      | cons x xs =>
        rw [List.eraseDups_cons, List.nodup_cons]
        refine ⟨?_, ih _ ?_⟩
        · rw [List.mem_eraseDups]; simp
        · exact Nat.le_trans (List.length_filter_le _ _) (by simpa using hl)
  refine ⟨(nodup_eraseDups _ _ (Nat.le_refl _)).sublist List.filter_sublist, ?_⟩
  intro n
  unfold sampleNames
  simp only [List.mem_filter, List.mem_eraseDups, List.mem_map, decide_eq_true_eq]
  constructor
  · rintro ⟨⟨e, ⟨s, hs, rfl⟩, rfl⟩, hn⟩; exact ⟨hn, s, hs, rfl⟩
  · rintro ⟨hn, s, hs, rfl⟩; exact ⟨⟨_, ⟨s, hs, rfl⟩, rfl⟩, hn⟩

example : parseKwarg " f = g(x=1) ".toList = ("f".toList, "g(x=1)".toList) := by decide

example : sampleNames ["table".toList, "intensity".toList] ["table".toList, "k=table".toList, "table =t".toList] =
    ["table".toList] := by decide +kernel

/-! ### C109 -/

theorem not_mem_join {x sep : Char} (hx : x ≠ sep) : ∀ (ps : List (List Char)), (∀ p ∈ ps, x ∉ p) → x ∉ pyJoin sep ps
  | [], _ => by simp [pyJoin]
  | [p], h => h p (by simp)
  | p :: q :: ps, h => by
    simp only [pyJoin, List.mem_append, List.mem_cons, not_or]
    exact ⟨h p (by simp), hx, not_mem_join hx (q :: ps) (fun r hr => h r (by simp [hr]))⟩

theorem join_ne_nil {sep : Char} : ∀ (ps : List (List Char)), ps ≠ [] → (∀ p ∈ ps, p ≠ []) → pyJoin sep ps ≠ []
  | [], h, _ => absurd rfl h
  | [p], _, h => h p (by simp)
  | p :: q :: ps, _, h => by simp [pyJoin]

theorem zip_fst_snd {β γ : Type} (l : List (β × γ)) : (l.map Prod.fst).zip (l.map Prod.snd) = l := by
  induction l with
  | nil => rfl
  | cons x l ih => simp [ih]

/-- **C109** The statistics of one use of `--statistic` are read as they were written. -/
theorem C109_read_back (gs : List (List StatItem)) (h : Writable gs) :
    parseStatistic (writeStats gs).1 (writeStats gs).2 = some gs := by
  obtain ⟨hne, hg⟩ := h
  have hnames : pySplit '&' (writeStats gs).1 = gs.map fun g => pyJoin '|' (g.map Prod.fst) := by
    refine pySplit_join '&' _ (by simpa using hne) ?_
    intro p hp
    obtain ⟨g, hgm, rfl⟩ := List.mem_map.mp hp
    refine not_mem_join (by decide) _ ?_
    intro n hn
    obtain ⟨i, hi, rfl⟩ := List.mem_map.mp hn
    exact ((hg g hgm).2 i hi).1.1
  have hdim : ∀ g ∈ gs, ∀ i ∈ g, ∀ x : Char, x ≠ '+' → (x = '&' ∨ x = '|') → x ∉ writeDims i.2 := by
    intro g hgm i hi x hx hx2
    cases hd : i.2 with
    | none => simp [writeDims]
    | some ds =>
      refine not_mem_join hx _ ?_
      intro d hdm
      have := (((hg g hgm).2 i hi).2 ds hd).2 d hdm
      rcases hx2 with rfl | rfl
      · exact this.2.1
      · exact this.2.2.1
  have hdims : pySplit '&' (writeStats gs).2 = gs.map fun g => pyJoin '|' (g.map fun i => writeDims i.2) := by
    refine pySplit_join '&' _ (by simpa using hne) ?_
    intro p hp
    obtain ⟨g, hgm, rfl⟩ := List.mem_map.mp hp
    refine not_mem_join (by decide) _ ?_
    intro n hn
    obtain ⟨i, hi, rfl⟩ := List.mem_map.mp hn
    exact hdim g hgm i hi _ (by decide) (Or.inl rfl)
  unfold parseStatistic
  simp only [hnames, hdims, List.length_map, if_true]
  congr 1
  rw [List.zipWith_map, List.zipWith_self]
  conv_rhs => rw [← List.map_id gs]
  apply List.map_congr_left
  intro g hgm
  have h1 : pySplit '|' (pyJoin '|' (g.map Prod.fst)) = g.map Prod.fst := by
    refine pySplit_join '|' _ (by simpa using (hg g hgm).1) ?_
    intro n hn
    obtain ⟨i, hi, rfl⟩ := List.mem_map.mp hn
    exact ((hg g hgm).2 i hi).1.2.1
  have h2 : pySplit '|' (pyJoin '|' (g.map fun i => writeDims i.2)) = g.map fun i => writeDims i.2 := by
    refine pySplit_join '|' _ (by simpa using (hg g hgm).1) ?_
    intro n hn
    obtain ⟨i, hi, rfl⟩ := List.mem_map.mp hn
    exact hdim g hgm i hi _ (by decide) (Or.inr rfl)
  rw [h1, h2, List.map_map]
  have h3 : g.map ((fun x : List Char => if x.length > 0 then some (pySplit '+' x) else none) ∘ fun i => writeDims i.2) =
      g.map Prod.snd := by
    apply List.map_congr_left
    intro i hi
    simp only [Function.comp]
    cases hd : i.2 with
    | none => simp [writeDims]
    | some ds =>
      have hw := ((hg g hgm).2 i hi).2 ds hd
      have hnn : pyJoin '+' ds ≠ [] := join_ne_nil ds hw.1 (fun d hdm => (hw.2 d hdm).1)
      show (if (pyJoin '+' ds).length > 0 then some (pySplit '+' (pyJoin '+' ds)) else none) = some ds
      rw [if_pos (List.length_pos_iff.mpr hnn), pySplit_join '+' ds hw.1 (fun d hdm => (hw.2 d hdm).2.2.2)]
  rw [h3, zip_fst_snd]; rfl

/-- **C109** The option is refused exactly when the two arguments have different numbers of `&`. -/
theorem C109_refused (stat dim : List Char) : parseStatistic stat dim = none ↔ stat.count '&' ≠ dim.count '&' := by
  unfold parseStatistic
  simp only [pySplit_length]
  by_cases h : stat.count '&' = dim.count '&'
  · simp [h]
  · simp [h]

/-- **C109** Inside a group nothing is refused: with fewer dimensions than statistics the last statistics are dropped
without notice. -/
theorem C109_silently_shortened_false :
    ¬ ∀ (stat dim : List Char) (gs : List (List StatItem)), parseStatistic stat dim = some gs →
      gs.map (·.map Prod.fst) = (pySplit '&' stat).map (pySplit '|') := by
  intro h
  have := h "mean|sum".toList "iter".toList [[("mean".toList, some ["iter".toList])]] (by decide)
  revert this
  decide

/-- **C109** The number of statistics that survive in a group. -/
theorem C109_group_size (stat dim : List Char) (gs : List (List StatItem)) (h : parseStatistic stat dim = some gs) (j : Nat)
    (g : List StatItem) (s d : List Char) (hg : gs[j]? = some g) (hs : (pySplit '&' stat)[j]? = some s)
    (hd : (pySplit '&' dim)[j]? = some d) : g.length = min (s.count '|') (d.count '|') + 1 := by
  unfold parseStatistic at h
  simp only at h
  split at h
  · simp only [Option.some.injEq] at h
    subst h
    rw [List.getElem?_zipWith, hs, hd] at hg
    simp only [Option.some.injEq] at hg
    subst hg
    simp only [List.length_zip, List.length_map, pySplit_length]
    omega
  · simp at h

/-- **C109** The metrics of distinct uses of the option are kept apart, each with its own groups, in order. -/
theorem C109_distinct_metrics_partial (uses : List (List Char × List Char × List Char))
    (hm : (uses.map Prod.fst).Nodup) (acc : List (List Char × List StatEntry))
    (hacc : ∀ u ∈ uses, u.1 ∉ acc.map Prod.fst) :
    unpackStatistics uses acc =
      (uses.mapM fun u => (parseStatistic u.2.1 u.2.2).map fun gs => (u.1, gs.map StatEntry.group)).map (acc ++ ·) := by
  induction uses generalizing acc with
  | nil => simp [unpackStatistics]
  | cons u uses ih =>
    obtain ⟨m, s, d⟩ := u
    simp only [List.map_cons, List.nodup_cons] at hm
    have hnew : ∀ (acc : List (List Char × List StatEntry)) gs, m ∉ acc.map Prod.fst → addStatistic acc m gs = acc ++ [(m, gs.map StatEntry.group)] := by
      intro acc gs
      induction acc with
      | nil => intro _; rfl
      | cons e acc ih =>
        intro h
        simp only [List.map_cons, List.mem_cons, not_or] at h
        simp [addStatistic, h.1, ih h.2]
    simp only [unpackStatistics, List.mapM_cons, Option.bind_eq_bind]
    cases hp : parseStatistic s d with
    | none => rfl
    | some gs =>
      simp only [Option.bind_some, Option.map_some]
      rw [hnew acc gs (hacc (m, s, d) (by simp)), ih hm.2]
      · cases List.mapM (fun u => (parseStatistic u.2.1 u.2.2).map fun gs => (u.1, gs.map StatEntry.group)) uses <;> simp
      · intro u hu
        simp only [List.map_append, List.map_cons, List.map_nil, List.mem_append, List.mem_singleton, not_or]
        exact ⟨hacc u (by simp [hu]), fun he => hm.1 (he ▸ List.mem_map.mpr ⟨u, hu, rfl⟩)⟩

theorem addStatistic_lookup (acc : List (List Char × List StatEntry)) (m u : List Char) (gs : List (List StatItem)) :
    (addStatistic acc m gs).lookup u =
      if u = m then some (match acc.lookup m with
        | none => gs.map StatEntry.group
        | some es => es ++ [.groups gs])
      else acc.lookup u := by
  induction acc with
  | nil =>
    by_cases h : u = m
    · simp [addStatistic, h]
    · have : (u == m) = false := by simpa using h
      simp [addStatistic, List.lookup_cons, h, this]
  | cons e acc ih =>
    obtain ⟨m', es⟩ := e
    simp only [addStatistic]
    by_cases hm : m = m'
    · subst hm
      by_cases h : u = m
      · simp [h]
      · have : (u == m) = false := by simpa using h
        simp [List.lookup_cons, h, this]
    · have hb : (m == m') = false := by simpa using hm
      simp only [hm, if_false, List.lookup_cons, hb]
      by_cases h : u = m'
      · subst h; simp [Ne.symm hm]
      · have : (u == m') = false := by simpa using h
        rw [this]; simpa using ih

theorem unpackStatistics_lookup (uses : List (List Char × List Char × List Char)) (m : List Char) :
    ∀ (acc d : List (List Char × List StatEntry)), unpackStatistics uses acc = some d →
    d.lookup m = match acc.lookup m, (uses.filter fun u => decide (u.1 = m)).filterMap fun u => parseStatistic u.2.1 u.2.2 with
      | some es, rest => some (es ++ rest.map StatEntry.groups)
      | none, [] => none
      | none, gs :: rest => some (gs.map StatEntry.group ++ rest.map StatEntry.groups) := by
  induction uses with
  | nil =>
    intro acc d h
    simp only [unpackStatistics, Option.some.injEq] at h
    subst h
    cases hl : List.lookup m acc <;> simp
  | cons u uses ih =>
    intro acc d h
    obtain ⟨m', s, t⟩ := u
    simp only [unpackStatistics, Option.bind_eq_bind, Option.bind_eq_some_iff] at h
    obtain ⟨gs, hg, h⟩ := h
    rw [ih _ d h, addStatistic_lookup]
    by_cases hm : m = m'
    · subst hm
      simp only [if_true, decide_true, List.filter_cons_of_pos, List.filterMap_cons, hg]
      cases hl : List.lookup m acc with
      | none => simp
      | some es => simp
    · have : ¬ (decide (m' = m)) = true := by simpa using Ne.symm hm
      have hf : List.filter (fun u : List Char × List Char × List Char => decide (u.1 = m)) ((m', s, t) :: uses) =
          List.filter (fun u => decide (u.1 = m)) uses := List.filter_cons_of_neg this
      rw [hf, if_neg hm]

/-- **C109** What a metric ends up with: the groups of the first use of the option for it, then one nested entry for every
further use, in order. -/
theorem C109_metric_entries (uses : List (List Char × List Char × List Char)) (d : List (List Char × List StatEntry))
    (h : unpackStatistics uses [] = some d) (m : List Char) :
    d.lookup m = match (uses.filter fun u => decide (u.1 = m)).filterMap fun u => parseStatistic u.2.1 u.2.2 with
      | [] => none
      | gs :: rest => some (gs.map StatEntry.group ++ rest.map StatEntry.groups) := by
  rw [unpackStatistics_lookup uses m [] d h]
  simp only [List.lookup_nil]
  generalize List.filterMap (fun u : List Char × List Char × List Char => parseStatistic u.2.1 u.2.2) (List.filter (fun u => decide (u.1 = m)) uses) = l
  cases l <;> rfl

/-- **C109**, the full claim "repeating the option for a metric adds its groups to those of the metric", fails: the second
use is stored as one entry that is a list of groups. -/
theorem C109_repeated_metric_false :
    ¬ ∀ (m s d s' d' : List Char) (gs gs' : List (List StatItem)), parseStatistic s d = some gs → parseStatistic s' d' = some gs' →
      unpackStatistics [(m, s, d), (m, s', d')] [] = some [(m, (gs ++ gs').map StatEntry.group)] := by
  intro h
  have := h "srmse".toList "mean".toList "iter".toList "sum".toList "iter".toList [[("mean".toList, some ["iter".toList])]]
    [[("sum".toList, some ["iter".toList])]] (by decide) (by decide)
  revert this
  decide

example : Writable [[("mean".toList, some ["iter".toList, "sweep".toList]), ("sum".toList, none)], [("std".toList, some ["iter".toList])]] := by
  refine ⟨by simp, ?_⟩
  intro g hg
  simp only [List.mem_cons, List.not_mem_nil, or_false] at hg
  rcases hg with rfl | rfl
  · refine ⟨by simp, ?_⟩
    intro i hi
    simp only [List.mem_cons, List.not_mem_nil, or_false] at hi
    rcases hi with rfl | rfl
    · refine ⟨⟨by decide, by decide, by decide⟩, ?_⟩
      rintro ds ⟨rfl⟩
      refine ⟨by simp, ?_⟩
      intro d hd
      simp only [List.mem_cons, List.not_mem_nil, or_false] at hd
      rcases hd with rfl | rfl <;> exact ⟨by decide, by decide, by decide, by decide⟩
    · exact ⟨⟨by decide, by decide, by decide⟩, fun ds h => (by cases h)⟩
  · refine ⟨by simp, ?_⟩
    intro i hi
    simp only [List.mem_cons, List.not_mem_nil, or_false] at hi
    subst hi
    refine ⟨⟨by decide, by decide, by decide⟩, ?_⟩
    rintro ds ⟨rfl⟩
    refine ⟨by simp, ?_⟩
    intro d hd
    simp only [List.mem_cons, List.not_mem_nil, or_false] at hd
    subst hd
    exact ⟨by decide, by decide, by decide, by decide⟩

example : writeStats [[("mean".toList, some ["iter".toList, "sweep".toList]), ("sum".toList, none)], [("std".toList, some ["iter".toList])]] =
    ("mean|sum&std".toList, "iter+sweep|&iter".toList) := by decide

end GeNSIT
