import Verif.Cli.Parse

/-!
# Property theorem C178 (options with several values)

The callbacks and option classes of `/repo/gensit/utils/click_parsers.py` that read options given several times or with several values, as used by
`/repo/gensit/main.py`: `-x`, `-y`, `-z` (`coordinate_parse`, main.py:654-659), `--loss_kwarg_keys` (`split_to_list`, :143), `--x_tick_locations` (`to_list` with two
arguments, :629), `--burnin_thinning_trimming` (`btt_callback`, :564), `--validation_data` (`to_dict`, :598), `--margins` (`OptionEatAll`, :120) and
`--experiment_type`, `--title`, `--exclude` (`NotRequiredIf`, :559-561).

click itself is modelled by its contract: an option with `multiple` hands over the list of its uses; a plain option of type `STRING` hands over `str` of what its parser stored.
-/

namespace GeNSIT

/-- `coordinate_parse` (`click_parsers.py:96-110`) of the uses of `-x`: major and minor coordinates. -/
def coordinateParse (uses : List (List Char)) : List (List Char) × List (List Char) :=
  let at_ (i : ℕ) : List (List Char) := match uses[i]? with
    | none => []
    | some v => if v = [] then [] else pySplit '&' v
  (at_ 0, at_ 1)

/-- `split_to_list` (`click_parsers.py:90-94`), `nargs` None. -/
def splitToList (uses : List (List Char)) : List (List (List Char)) := uses.map (pySplit '&')

/-- `to_list(..., nargs)` (`click_parsers.py:74-80`): `list(value)[:nargs]`. -/
def toList {α : Type} (nargs : Option ℕ) (uses : List α) : List α := match nargs with
  | none => uses
  | some n => uses.take n

/-- An entry of the list made by `btt_callback` (`click_parsers.py:5-20`). -/
structure SliceOption where
  dims : List Char
  burnin : ℕ
  thinning : ℕ
  trimming : ℕ
deriving DecidableEq, Repr

/-- `btt_callback` (`click_parsers.py:5-20`): one dictionary per use. -/
def bttCallback (uses : List (List Char × ℕ × ℕ × ℕ)) : List SliceOption := uses.map fun u => ⟨u.1, u.2.1, u.2.2.1, u.2.2.2⟩

/-- `to_dict` (`click_parsers.py:43-47`): a dictionary comprehension, so a later use of a name replaces the value. -/
def optionDict (uses : List (List Char × List Char)) (name : List Char) : Option (List Char) := uses.reverse.lookup name

/-- Whether a command-line token starts with a prefix of the option (`-` for `--margins` and `-ma`). -/
def looksLikeOption (t : List Char) : Bool := t.head? == some '-'

/-- `OptionEatAll` (`click_parsers.py:225-265`) with `save_other_options`: the values taken, and the tokens left to the parser, given the tokens after the option's name.
`none`: the option has no value. -/
def eatAll : List (List Char) → Option (List (List Char) × List (List Char))
  | [] => none
  | v :: rest => some (v :: rest.takeWhile fun t => !looksLikeOption t, rest.dropWhile fun t => !looksLikeOption t)

/-- `repr` of a text without quotes, backslashes and unprintable characters. -/
def reprText (s : List Char) : List Char := '\'' :: s ++ ['\'']

/-- `str` of a tuple of such texts. -/
def strTuple (vs : List (List Char)) : List Char := match vs with
  | [] => "()".toList
  | [v] => '(' :: reprText v ++ ",)".toList
  | v :: ws => '(' :: reprText v ++ (ws.flatMap fun w => ", ".toList ++ reprText w) ++ [')']

/-- What a plain text option hands over (`StringParamType.convert`): text is kept, anything else is turned into text. -/
def marginsOption (tokens : List (List Char)) : Option (List Char) := (eatAll tokens).map fun e => strTuple e.1

/-- `NotRequiredIf.handle_parse_result` (`click_parsers.py:210-223`): whether the command is refused. -/
def exclusiveRefused (given : List String) (name other : String) : Bool := given.contains other && given.contains name

/-! ### Specification -/

/-- How a user writes names that belong together: separated by `&`. -/
def Spec.written (names : List (List Char)) : List Char := pyJoin '&' names

/-- Names that can be written this way: at least one, none of them contains `&` and not just an empty one. -/
def Spec.Nameable (names : List (List Char)) : Prop := names ≠ [] ∧ names ≠ [[]] ∧ ∀ n ∈ names, '&' ∉ n

/-! ### Lemmas -/

theorem written_ne_nil (names : List (List Char)) (h : Spec.Nameable names) : Spec.written names ≠ [] := by
  obtain ⟨h1, h2, _⟩ := h
  match names with
  | [] => exact absurd rfl h1
  | [p] => intro h; apply h2; simp only [Spec.written, pyJoin] at h; rw [h]
  | p :: q :: ps => simp [Spec.written, pyJoin]

theorem split_written (names : List (List Char)) (h : Spec.Nameable names) : pySplit '&' (Spec.written names) = names :=
  pySplit_join '&' names h.1 h.2.2

/-! ### Theorems -/

/-- **C178 (coordinates).**  Major and minor coordinates are the names written in the first and in the second use of the option; no use, no names. -/
theorem C178_coordinates (major minor : List (List Char)) (hM : Spec.Nameable major) (hm : Spec.Nameable minor) :
    coordinateParse [] = ([], []) ∧ coordinateParse [Spec.written major] = (major, []) ∧
      coordinateParse [Spec.written major, Spec.written minor] = (major, minor) := by
  refine ⟨rfl, ?_, ?_⟩
  · simp [coordinateParse, written_ne_nil major hM, split_written major hM]
  · simp [coordinateParse, written_ne_nil major hM, split_written major hM, written_ne_nil minor hm, split_written minor hm]

/-- An empty use stands for no names, so minor coordinates can be given without major ones. -/
theorem C178_minor_only (minor : List (List Char)) (hm : Spec.Nameable minor) : coordinateParse [[], Spec.written minor] = ([], minor) := by
  simp [coordinateParse, written_ne_nil minor hm, split_written minor hm]

/-- Uses after the second one are dropped without a word, and so are tick locations. -/
theorem C178_third_dropped (a b : List Char) (more : List (List Char)) :
    coordinateParse (a :: b :: more) = coordinateParse [a, b] ∧
      ∀ (α : Type) (x y : α) (rest : List α), toList (some 2) (x :: y :: rest) = [x, y] := by
  refine ⟨rfl, fun α x y rest => rfl⟩

/-- "Every name written is read" is false. -/
theorem C178_third_false : ¬ ∀ uses : List (List (List Char)), (∀ u ∈ uses, Spec.Nameable u) →
    ∀ u ∈ uses, ∀ n ∈ u, n ∈ (coordinateParse (uses.map Spec.written)).1 ∨ n ∈ (coordinateParse (uses.map Spec.written)).2 := by
  intro h
  have := h [["a".toList], ["b".toList], ["c".toList]] (by
    intro u hu
    simp only [List.mem_cons, List.not_mem_nil, or_false] at hu
    rcases hu with rfl | rfl | rfl <;> exact ⟨by simp, by simp, by simp⟩) ["c".toList] (by simp) "c".toList (by simp)
  revert this
  decide +kernel

/-- **C178 (keywords of losses).**  Each use gives the names written in it, however many uses there are. -/
theorem C178_split (uses : List (List (List Char))) (h : ∀ u ∈ uses, Spec.Nameable u) : splitToList (uses.map Spec.written) = uses := by
  unfold splitToList
  rw [List.map_map]
  conv_rhs => rw [← List.map_id uses]
  exact List.map_congr_left fun u hu => split_written u (h u hu)

/-- **C178 (burn-in, thinning, trimming).**  Every use gives one slice, in the order of the command line, with the numbers in their places. -/
theorem C178_btt (uses : List (List Char × ℕ × ℕ × ℕ)) :
    (bttCallback uses).length = uses.length ∧
      ∀ (i : ℕ) (d : List Char) (b t k : ℕ), uses[i]? = some (d, b, t, k) ↔ (bttCallback uses)[i]? = some ⟨d, b, t, k⟩ := by
  refine ⟨by simp [bttCallback], fun i d b t k => ?_⟩
  unfold bttCallback
  rw [List.getElem?_map]
  cases uses[i]? with
  | none => simp
  | some u =>
    obtain ⟨d', b', t', k'⟩ := u
    simp

/-- **C178 (validation data).**  The value of a name is the one of its last use; names that are not used have none. -/
theorem C178_dict (before after : List (List Char × List Char)) (name value : List Char) (ha : ∀ u ∈ after, u.1 ≠ name) :
    optionDict (before ++ (name, value) :: after) name = some value ∧ optionDict after name = none := by
  have hn : after.reverse.lookup name = none := by
    rw [List.lookup_eq_none_iff]
    intro p hp
    have := ha p (List.mem_reverse.1 hp)
    simpa using fun h => this h.symm
  refine ⟨?_, hn⟩
  unfold optionDict
  rw [List.reverse_append, List.reverse_cons, List.lookup_append, List.lookup_append, hn]
  simp

/-- **C178 (margins: which values).**  The values are the token after the option and all following ones up to the next token that looks like an option; the rest is left. -/
theorem C178_margins_values (v : List Char) (vals rest : List (List Char)) (hv : ∀ t ∈ vals, t.head? ≠ some '-')
    (hr : ∀ t, rest.head? = some t → t.head? = some '-') : eatAll (v :: (vals ++ rest)) = some (v :: vals, rest) := by
  have h1 : ∀ t ∈ vals, (!looksLikeOption t) = true := fun t ht => by simp [looksLikeOption, hv t ht]
  simp only [eatAll]
  rw [List.takeWhile_append_of_pos h1, List.dropWhile_append_of_pos h1]
  cases rest with
  | nil => simp
  | cons t ts =>
    have := hr t rfl
    simp [looksLikeOption, this]

/-- In particular the path of the configuration, a positional argument, is taken as a margin when it follows the margins. -/
theorem C178_margins_swallow (v config : List Char) (vals : List (List Char)) (hv : ∀ t ∈ vals, t.head? ≠ some '-')
    (hc : config.head? ≠ some '-') : ∃ taken, eatAll (v :: (vals ++ [config])) = some (taken, []) ∧ config ∈ taken := by
  refine ⟨v :: (vals ++ [config]), ?_, by simp⟩
  have := C178_margins_values v (vals ++ [config]) [] (by
    intro t ht
    rcases List.mem_append.1 ht with h | h
    · exact hv t h
    · rw [List.mem_singleton.1 h]; exact hc) (by simp)
  simpa using this

/-- **C178 (margins: what is handed over).**  Not the values, and not the name of a file either, but one text that shows them as a tuple: it starts with a bracket, and no single name equals it. -/
theorem C178_margins_text (v : List Char) (vals rest : List (List Char)) (hv : ∀ t ∈ vals, t.head? ≠ some '-')
    (hr : ∀ t, rest.head? = some t → t.head? = some '-') :
    ∃ s, marginsOption (v :: (vals ++ rest)) = some s ∧ s.head? = some '(' ∧ s.getLast? = some ')' ∧ (∀ t ∈ v :: vals, t.length < s.length) := by
  refine ⟨strTuple (v :: vals), ?_, ?_⟩
  · unfold marginsOption
    rw [C178_margins_values v vals rest hv hr]
    rfl
  · cases vals with
    | nil =>
      refine ⟨rfl, ?_, ?_⟩
      · change (('(' :: reprText v) ++ [',', ')']).getLast? = _
        rw [List.getLast?_append]
        rfl
      · simp [strTuple, reprText]; omega
    | cons w ws =>
      refine ⟨rfl, ?_, ?_⟩
      · change (_ ++ [')']).getLast? = _
        exact List.getLast?_concat
      · intro t ht
        rcases List.mem_cons.1 ht with rfl | ht
        · simp [strTuple, reprText]; omega
        · obtain ⟨a, b, hab⟩ := List.append_of_mem ht
          rw [strTuple, hab]
          · simp [reprText, List.flatMap_append]; omega
          · simp

/-- "A single margin file given on the command line reaches the configuration" is false. -/
theorem C178_margins_false : ¬ ∀ f : List Char, f.head? ≠ some '-' → marginsOption [f] = some f := by
  intro h
  have := h "a.txt".toList (by decide +kernel)
  revert this
  decide +kernel

/-- **C178 (exclusive options).**  A command is refused exactly when an option and the one that excludes it are both given. -/
theorem C178_exclusive (given : List String) (name other : String) : exclusiveRefused given name other = true ↔ name ∈ given ∧ other ∈ given := by
  simp [exclusiveRefused, and_comm]

example : coordinateParse ["sigma&alpha".toList, "beta".toList] = (["sigma".toList, "alpha".toList], ["beta".toList]) := by decide +kernel

example : Spec.Nameable ["sigma".toList, "alpha".toList] := ⟨by simp, by simp, by decide +kernel⟩

example : marginsOption ["r.txt".toList, "c.txt".toList, "-n".toList, "10".toList] = some "('r.txt', 'c.txt')".toList := by decide +kernel

example : optionDict [("a".toList, "1".toList), ("a".toList, "2".toList)] "a".toList = some "2".toList := by decide +kernel

example : exclusiveRefused ["title", "directories"] "title" "directories" = true ∧ exclusiveRefused ["title"] "title" "directories" = false := by decide +kernel

end GeNSIT
