import Verif.Summary.FileName

/-!
# Stored figure data (`gensit/plot.py`: `create_plot_filename`, `read_plot_data`, `data_plot`; `gensit/utils/misc_utils.py`:
`write_figure_data`, `unpack_data`) (C184, C185)

Paths and texts are lists of characters.  Drawing itself is not modelled: a drawing is what is handed to matplotlib for
each record.
-/

set_option linter.unusedSimpArgs false
set_option linter.unusedVariables false

namespace GeNSIT

/-! ### Names of figures -/

/-- One `burnin_thinning_trimming` option: the variable and its three numbers (`click_parsers.py:5-20`). -/
structure FigSlice where
  var : Txt
  burnin : ℕ
  thinning : ℕ
  trimming : ℕ

/-- The settings the name of a figure is made of (`plot.py:1512-1543`). `title` is `figure_title` (`none` when not given:
`main.py:707`). Simplification: the numbers of `marker_size` etc. are the texts given on the command line. -/
structure FigOptions where
  title : Option Txt
  slices : List FigSlice
  label : List Txt := [[]]
  marker : Txt := ".".toList
  markerSize : Txt := "1.0".toList
  lineStyle : Txt := "-".toList
  lineWidth : Txt := "1.0".toList
  hatch : Txt := []
  colour : Txt := []
  opacity : Txt := "1.0".toList
  hatchOpacity : Txt := "1.0".toList

/-- `f"({var},burnin{..},thinning{..},trimming{..})"` (`plot.py:1517`). -/
def FigSlice.text (s : FigSlice) : Txt :=
  "(".toList ++ s.var ++ ",burnin".toList ++ Nat.toDigits 10 s.burnin ++ ",thinning".toList ++ Nat.toDigits 10 s.thinning ++
    ",trimming".toList ++ Nat.toDigits 10 s.trimming ++ ")".toList

/-- `if self.settings.get(key, default) != default: filename += [f"key_{value}"]` (`plot.py:1522-1540`). -/
def featurePart (key value default : Txt) : List Txt := if value ≠ default then [key ++ value] else []

/-- The features of the name (`plot.py:1522-1540`). -/
def FigOptions.featureParts (o : FigOptions) : List Txt :=
  (if o.label ≠ [[]] then ["label_".toList ++ List.intercalate "&".toList o.label] else []) ++
  featurePart "marker_".toList o.marker ".".toList ++ featurePart "markersize_".toList o.markerSize [] ++
  featurePart "linestyle_".toList o.lineStyle "-".toList ++ featurePart "linewidth_".toList o.lineWidth [] ++
  featurePart "hatch_".toList o.hatch [] ++ featurePart "colour_".toList o.colour [] ++
  featurePart "opacity_".toList o.opacity [] ++ featurePart "hatchopacity_".toList o.hatchOpacity []

/-- `create_plot_filename`, the name (`plot.py:1513-1543`); `joinParts` drops empty parts (`[f for f in filename if f]`,
which also drops a title that is `None`). -/
def FigOptions.fileName (o : FigOptions) : Txt :=
  joinParts (o.title.getD [] :: List.intercalate "_".toList (o.slices.map FigSlice.text) :: o.featureParts)

/-- What decides the directory (`plot.py:1545-1560`): the data directories given, whether figures are made by experiment,
and of the outputs the path, its parent and the output directory of the configuration. -/
structure FigPlace where
  dataDirs : List Txt
  byExperiment : Bool
  outputs : Txt
  parent : Txt
  outDirectory : Txt

/-- `create_plot_filename`, the directory (`plot.py:1545-1560`). -/
def FigPlace.dir (p : FigPlace) : Txt :=
  match p.dataDirs with
  | [d] => d
  | _ =>
    if p.byExperiment then osJoin p.outputs "figures".toList
    else osJoin (if "synthetic".toList <:+: p.outputs then p.outDirectory else p.parent) "paper_figures".toList

/-! ### Writing the data of a figure -/

/-- JSON values of figure data. -/
inductive FigVal where
  | null
  | num (x : ℚ)
  | str (s : Txt)
  | list (l : List FigVal)

/-- The merged settings of a figure: the entry of each key that has one. -/
abbrev FigDatum := String → Option FigVal

/-- What a file holds: the data of a figure, or the settings of a plot. -/
inductive FigContent (S : Type) where
  | data (d : String → FigVal)
  | settings (s : S)

/-- `data_format` (`main.py:746-747`). -/
inductive FigFormat where
  | dat
  | txt
  | json
  | csv

abbrev FigFiles (S : Type) := Txt → Option (FigContent S)

/-- Writing a file: an existing file is replaced. -/
def FigFiles.put {S : Type} (fs : FigFiles S) (p : Txt) (c : FigContent S) : FigFiles S := fun q => if q = p then some c else fs q

/-- `plot_datum.get(k, None)` (`misc_utils.py:171`). -/
def storedOf (d : FigDatum) : String → FigVal := fun k => (d k).getD .null

/-- Length of a column of the data frame; scalars (`none`) are repeated. -/
def FigVal.columnLength : FigVal → Option ℕ
  | .list l => some l.length
  | _ => none

/-- `pd.DataFrame.from_dict` accepts the columns: all lists of one length. -/
def sameLengths (keys : List String) (d : FigDatum) : Bool :=
  match keys.filterMap fun k => (storedOf d k).columnLength with
  | [] => true
  | n :: r => r.all (· == n)

/-- `write_figure_data` for the one merged figure (`misc_utils.py:149-191`); `none` = an exception. `dat`: `dtypes` is a
one-element tuple because of the comma after the dictionary (`misc_utils.py:160`), so `dtypes[k]` raises for every key.
`txt`: no branch, only the settings are written. Simplifications: the table written as `csv` is represented by the same
content as `json`; a frame of scalars only, which pandas refuses, does not arise since `x` is always a list. -/
def writeFigureData {S : Type} (fmt : FigFormat) (keys : List String) (d : FigDatum) (s : S) (path : Txt) (fs : FigFiles S) :
    Option (FigFiles S) :=
  match fmt with
  | .dat => if keys = [] then some (fs.put (path ++ "_settings.json".toList) (.settings s)) else none
  | .txt => some (fs.put (path ++ "_settings.json".toList) (.settings s))
  | .json => some ((fs.put (path ++ "_data.json".toList) (.data (storedOf d))).put (path ++ "_settings.json".toList) (.settings s))
  | .csv =>
    if sameLengths keys d then
      some ((fs.put (path ++ "_data.csv".toList) (.data (storedOf d))).put (path ++ "_settings.json".toList) (.settings s))
    else none

/-- A request for a figure: how it is named and placed, and what it shows. The merged data depend on the coordinates
`x`, `y`, `z`, the groups and the folders, none of which the name contains. -/
structure FigRequest (S : Type) where
  options : FigOptions
  place : FigPlace
  data : FigDatum
  settings : S

/-- `os.path.join(dirpath, filename)` (`plot.py:1716`). -/
def FigRequest.path {S : Type} (r : FigRequest S) : Txt := osJoin r.place.dir r.options.fileName

/-- `data_plot` up to the writing (`plot.py:1743-1760`), data format `json`. -/
def FigRequest.run {S : Type} (keys : List String) (r : FigRequest S) (fs : FigFiles S) : Option (FigFiles S) :=
  writeFigureData .json keys r.data r.settings r.path fs

/-! ### C184 -/

namespace Spec

/-- The data of a figure can be found under its path. -/
def Kept {S : Type} (fs : FigFiles S) (r : FigRequest S) : Prop :=
  fs (r.path ++ "_data.json".toList) = some (.data fun k => (r.data k).getD .null)

end Spec

theorem cut_inj (c : Char) {x x' r r' : List Char} (hx : c ∉ x) (hx' : c ∉ x') (h : x ++ c :: r = x' ++ c :: r') : x = x' ∧ r = r' := by
  induction x generalizing x' with
  | nil =>
    cases x' with
    | nil => simpa using h
    | cons d x' =>
      simp only [List.nil_append, List.cons_append, List.cons.injEq] at h
      exact absurd (by simp [← h.1]) hx'
  | cons d x ih =>
    cases x' with
    | nil =>
      simp only [List.nil_append, List.cons_append, List.cons.injEq] at h
      exact absurd (by simp [h.1]) hx
    | cons d' x' =>
      simp only [List.cons_append, List.cons.injEq] at h
      obtain ⟨h1, h2⟩ := ih (x' := x') (fun hm => hx (by simp [hm])) (fun hm => hx' (by simp [hm])) h.2
      exact ⟨by rw [h.1, h1], h2⟩

theorem digits_inj {m n : ℕ} (h : Nat.toDigits 10 m = Nat.toDigits 10 n) : m = n := by
  have := congrArg (fun l => Nat.ofDigitChars 10 l 0) h
  simpa [Nat.ofDigitChars_ten_toDigits] using this

theorem notMem_digits {c : Char} (hc : c.isDigit = false) (n : ℕ) : c ∉ Nat.toDigits 10 n := fun h => by
  have := Nat.isDigit_of_mem_toDigits (b := 10) (by decide) (by decide) h
  simp [hc] at this

theorem FigSlice.text_inj {s s' : FigSlice} (hs : ',' ∉ s.var) (hs' : ',' ∉ s'.var) {r r' : Txt} (h : s.text ++ r = s'.text ++ r') :
    s = s' ∧ r = r' := by
  obtain ⟨v, b, t, k⟩ := s
  obtain ⟨v', b', t', k'⟩ := s'
  simp only [FigSlice.text, List.append_assoc] at h
  have hb : ",burnin".toList = ',' :: "burnin".toList := by decide +kernel
  have ht : ",thinning".toList = ',' :: "thinning".toList := by decide +kernel
  have hk : ",trimming".toList = ',' :: "trimming".toList := by decide +kernel
  have hp : ")".toList = [')'] := by decide +kernel
  rw [hb, ht, hk, hp] at h
  have h1 := List.append_cancel_left h
  simp only [List.cons_append, List.append_assoc] at h1
  obtain ⟨e1, h2⟩ := cut_inj ',' hs hs' h1
  have h3 := List.append_cancel_left h2
  obtain ⟨e2, h4⟩ := cut_inj ',' (notMem_digits (by decide) b) (notMem_digits (by decide) b') h3
  have h5 := List.append_cancel_left h4
  obtain ⟨e3, h6⟩ := cut_inj ',' (notMem_digits (by decide) t) (notMem_digits (by decide) t') h5
  have h7 := List.append_cancel_left h6
  obtain ⟨e4, h8⟩ := cut_inj ')' (notMem_digits (by decide) k) (notMem_digits (by decide) k') h7
  change v = v' at e1
  exact ⟨by rw [e1, digits_inj e2, digits_inj e3, digits_inj e4], h8⟩

theorem FigSlice.text_ne_nil (s : FigSlice) : s.text ≠ [] := by
  have : "(".toList = ['('] := by decide +kernel
  simp [FigSlice.text, this]

theorem slices_cons (s : FigSlice) (l : List FigSlice) : List.intercalate "_".toList ((s :: l).map FigSlice.text) =
    s.text ++ (if l = [] then [] else "_".toList ++ List.intercalate "_".toList (l.map FigSlice.text)) := by
  cases l with
  | nil => simp [List.intercalate, List.intersperse]
  | cons a l => simp [List.intercalate, List.intersperse]

theorem slices_inj : ∀ (l l' : List FigSlice), (∀ s ∈ l, ',' ∉ s.var) → (∀ s ∈ l', ',' ∉ s.var) →
    List.intercalate "_".toList (l.map FigSlice.text) = List.intercalate "_".toList (l'.map FigSlice.text) → l = l'
  | [], [], _, _, _ => rfl
  | [], s :: l', _, _, h => by
    rw [slices_cons] at h
    simp [List.intercalate, FigSlice.text_ne_nil] at h
  | s :: l, [], _, _, h => by
    rw [slices_cons] at h
    simp [List.intercalate] at h
    exact absurd h.1 (FigSlice.text_ne_nil s)
  | s :: l, s' :: l', hl, hl', h => by
    rw [slices_cons, slices_cons] at h
    obtain ⟨e, h2⟩ := FigSlice.text_inj (hl s (by simp)) (hl' s' (by simp)) h
    have hu : "_".toList = ['_'] := by decide +kernel
    by_cases h3 : l = [] <;> by_cases h4 : l' = []
    · rw [e, h3, h4]
    · rw [if_pos h3, if_neg h4, hu] at h2; simp at h2
    · rw [if_neg h3, if_pos h4, hu] at h2; simp at h2
    · rw [if_neg h3, if_neg h4] at h2
      rw [e, slices_inj l l' (fun x hx => hl x (by simp [hx])) (fun x hx => hl' x (by simp [hx])) (List.append_cancel_left h2)]

theorem joinParts_cons {p : Txt} (hp : p ≠ []) (ps : List Txt) : joinParts (p :: ps) =
    p ++ (if (ps.filter fun s => !s.isEmpty) = [] then [] else "_".toList ++ joinParts ps) := by
  have : (!p.isEmpty) = true := by cases p <;> simp at hp ⊢
  unfold joinParts
  rw [List.filter_cons, if_pos this]
  generalize (ps.filter fun s => !s.isEmpty) = qs
  rcases qs with _ | ⟨q, qs⟩
  · simp [List.intercalate, List.intersperse]
  · simp [List.intercalate, List.intersperse]

theorem joinParts_nil_cons (ps : List Txt) : joinParts ([] :: ps) = joinParts ps := by simp [joinParts]

theorem FigOptions.fileName_slices (o : FigOptions) (l l' : List FigSlice)
    (h : { o with slices := l }.fileName = { o with slices := l' }.fileName) :
    List.intercalate "_".toList (l.map FigSlice.text) = List.intercalate "_".toList (l'.map FigSlice.text) := by
  have hu : "_".toList = ['_'] := by decide +kernel
  have key : ∀ (a b : Txt) (ps : List Txt), joinParts (a :: ps) = joinParts (b :: ps) → a = b := by
    intro a b ps hab
    by_cases ha : a = [] <;> by_cases hb : b = []
    · rw [ha, hb]
    · rw [ha, joinParts_nil_cons, joinParts_cons hb] at hab
      have := congrArg List.length hab
      by_cases hf : (ps.filter fun s => !s.isEmpty) = []
      · have h0 : joinParts ps = [] := by simp [joinParts, hf, List.intercalate]
        rw [h0, if_pos hf] at hab
        simp at hab
        exact absurd hab hb
      · rw [if_neg hf] at this
        simp [hu] at this
        omega
    · rw [hb, joinParts_nil_cons, joinParts_cons ha] at hab
      have := congrArg List.length hab
      by_cases hf : (ps.filter fun s => !s.isEmpty) = []
      · have h0 : joinParts ps = [] := by simp [joinParts, hf, List.intercalate]
        rw [h0, if_pos hf] at hab
        simp at hab
        exact absurd hab ha
      · rw [if_neg hf] at this
        simp [hu] at this
        omega
    · rw [joinParts_cons ha, joinParts_cons hb] at hab
      exact List.append_cancel_right hab
  unfold FigOptions.fileName at h
  by_cases ht : o.title.getD [] = []
  · simp only [ht, joinParts_nil_cons] at h
    exact key _ _ _ h
  · simp only [] at h
    rw [joinParts_cons ht, joinParts_cons ht] at h
    have h2 := List.append_cancel_left h
    by_cases h3 : ((List.intercalate "_".toList (l.map FigSlice.text) :: o.featureParts).filter fun s => !s.isEmpty) = [] <;>
      by_cases h4 : ((List.intercalate "_".toList (l'.map FigSlice.text) :: o.featureParts).filter fun s => !s.isEmpty) = []
    · have e1 := (List.filter_eq_nil_iff.1 h3) _ (List.mem_cons_self)
      have e2 := (List.filter_eq_nil_iff.1 h4) _ (List.mem_cons_self)
      simp only [Bool.not_eq_true', Bool.not_eq_false, List.isEmpty_iff] at e1 e2
      rw [e1, e2]
    · erw [if_pos h3, if_neg h4, hu] at h2; simp at h2
    · erw [if_neg h3, if_pos h4, hu] at h2; simp at h2
    · erw [if_neg h3, if_neg h4] at h2
      exact key _ _ _ (List.append_cancel_left h2)

/-- C184: figures of different burn-in, thinning or trimming have different names (all other settings alike; variables
without commas). -/
theorem C184_slices (o : FigOptions) (l l' : List FigSlice) (hl : ∀ s ∈ l, ',' ∉ s.var) (hl' : ∀ s ∈ l', ',' ∉ s.var) :
    { o with slices := l }.fileName = { o with slices := l' }.fileName ↔ l = l' :=
  ⟨fun h => slices_inj l l' hl hl' (o.fileName_slices l l' h), fun h => by rw [h]⟩

example : { title := none, slices := [⟨"iter".toList, 10, 1, 5⟩] : FigOptions}.fileName ≠
    { title := none, slices := [⟨"iter".toList, 1, 1, 5⟩] : FigOptions}.fileName := by decide +kernel

example : { title := some "a".toList, slices := [⟨"iter".toList, 10, 1, 5⟩] : FigOptions}.fileName =
    "a_(iter,burnin10,thinning1,trimming5)_markersize_1.0_linewidth_1.0_opacity_1.0_hatchopacity_1.0".toList := by decide +kernel

theorem data_ne_settings (p q : Txt) : p ++ "_data.json".toList ≠ q ++ "_settings.json".toList := by
  intro h
  have := congrArg (fun l : List Char => (l.reverse.drop 5).head?) h
  have e1 : "_data.json".toList = "_data".toList ++ ".json".toList := by decide +kernel
  have e2 : "_settings.json".toList = "_settings".toList ++ ".json".toList := by decide +kernel
  rw [e1, e2] at this
  simp at this

/-- C184: a stored figure stays until a figure with the same path is made. -/
theorem C184_kept {S : Type} (keys : List String) (r r' : FigRequest S) (fs fs1 fs2 : FigFiles S) (h1 : r.run keys fs = some fs1)
    (h2 : r'.run keys fs1 = some fs2) (hp : r.path ≠ r'.path) : Spec.Kept fs2 r ∧ Spec.Kept fs2 r' := by
  simp only [FigRequest.run, writeFigureData, Option.some.injEq] at h1 h2
  subst h1 h2
  refine ⟨?_, ?_⟩
  · simp only [Spec.Kept, FigFiles.put]
    rw [if_neg (data_ne_settings _ _), if_neg (fun h => hp (List.append_cancel_right h)), if_neg (data_ne_settings _ _), if_pos trivial]
    rfl
  · simp only [Spec.Kept, FigFiles.put]
    rw [if_neg (data_ne_settings _ _), if_pos trivial]
    rfl

/-- C184, exact behaviour otherwise: a figure with the same options and directory replaces the data, whatever it shows. -/
theorem C184_replaced {S : Type} (keys : List String) (r r' : FigRequest S) (fs fs1 fs2 : FigFiles S) (h1 : r.run keys fs = some fs1)
    (h2 : r'.run keys fs1 = some fs2) (ho : r.options = r'.options) (hd : r.place.dir = r'.place.dir) :
    fs2 (r.path ++ "_data.json".toList) = some (.data fun k => (r'.data k).getD .null) := by
  have hp : r.path = r'.path := by rw [FigRequest.path, FigRequest.path, ho, hd]
  simp only [FigRequest.run, writeFigureData, Option.some.injEq] at h1 h2
  subst h1 h2
  rw [hp]
  simp only [FigFiles.put]
  rw [if_neg (data_ne_settings _ _), if_pos trivial]
  rfl

/-- C184: by experiment, figures of different outputs are in different directories (paths without a final `/`). -/
theorem C184_by_experiment (p p' : FigPlace) (h : p.byExperiment = true) (h' : p'.byExperiment = true)
    (hn : p.dataDirs = []) (hn' : p'.dataDirs = []) (ho : p.outputs ≠ []) (ho' : p'.outputs ≠ []) (hl : p.outputs.getLast? ≠ some '/')
    (hl' : p'.outputs.getLast? ≠ some '/') : p.dir = p'.dir ↔ p.outputs = p'.outputs := by
  have hf : ¬ "figures".toList.head? = some '/' := by decide +kernel
  simp only [FigPlace.dir, h, h', hn, hn', if_true, osJoin, if_neg hf, ho, ho', hl, hl', or_self, if_false]
  exact ⟨fun e => List.append_cancel_right e, fun e => by rw [e]⟩

example : (FigPlace.dir ⟨[], true, "out/a".toList, "out".toList, "out".toList⟩) = "out/a/figures".toList := by decide +kernel

/-- C184: otherwise the directory depends on the outputs only through their parent (output directory). -/
theorem C184_shared_directory (p : FigPlace) (outputs : Txt) (h : p.byExperiment = false)
    (hs : "synthetic".toList <:+: p.outputs ↔ "synthetic".toList <:+: outputs) : { p with outputs := outputs }.dir = p.dir := by
  have key : (if "synthetic".toList <:+: outputs then p.outDirectory else p.parent) =
      (if "synthetic".toList <:+: p.outputs then p.outDirectory else p.parent) := by
    by_cases hq : "synthetic".toList <:+: outputs
    · rw [if_pos hq, if_pos (hs.2 hq)]
    · rw [if_neg hq, if_neg (fun e => hq (hs.1 e))]
  unfold FigPlace.dir
  simp only [h, key]
  rcases p.dataDirs with _ | ⟨d, _ | ⟨d', ds⟩⟩ <;> simp only [Bool.false_eq_true, if_false]

/-- The full statement of C184: whatever two requests show, the data of both are kept if their figures differ in data. -/
def Spec.FiguresKept (S : Type) : Prop :=
  ∀ (keys : List String) (r r' : FigRequest S) (fs fs1 fs2 : FigFiles S), r.run keys fs = some fs1 → r'.run keys fs1 = some fs2 →
    r.data ≠ r'.data → Spec.Kept fs2 r

/-- C184, the negation: two figures with the same options in the same directory, of different variables. -/
theorem C184_false : ¬ Spec.FiguresKept Unit := by
  intro H
  let o : FigOptions := { title := none, slices := [] }
  let p : FigPlace := ⟨[], false, "out/a".toList, "out".toList, "out".toList⟩
  let r : FigRequest Unit := ⟨o, p, fun k => if k = "x" then some (.list [.num 1]) else none, ()⟩
  let r' : FigRequest Unit := ⟨o, p, fun k => if k = "x" then some (.list [.num 2]) else none, ()⟩
  have h := H [] r r' (fun _ => none) _ _ rfl rfl (fun e => by
    have := congrFun e "x"
    simp [r, r'] at this)
  have h2 := C184_replaced [] r r' (fun _ => none) _ _ rfl rfl rfl rfl
  rw [Spec.Kept, h2] at h
  simp only [Option.some.injEq, FigContent.data.injEq] at h
  have := congrFun h "x"
  simp [r, r'] at this

/-- C184, the formats: `json` always stores the data, `csv` exactly when all lists have one length, `txt` stores none and
`dat` ends the program. -/
theorem C184_formats {S : Type} (keys : List String) (hk : keys ≠ []) (d : FigDatum) (s : S) (path : Txt) (fs : FigFiles S) :
    (∃ fs', writeFigureData .json keys d s path fs = some fs' ∧ fs' (path ++ "_data.json".toList) = some (.data (storedOf d))) ∧
    ((∃ fs', writeFigureData .csv keys d s path fs = some fs') ↔
      ∀ a ∈ keys, ∀ b ∈ keys, ∀ la lb : List FigVal, d a = some (.list la) → d b = some (.list lb) → la.length = lb.length) ∧
    (∃ fs', writeFigureData .txt keys d s path fs = some fs' ∧ ∀ q, q ≠ path ++ "_settings.json".toList → fs' q = fs q) ∧
    writeFigureData .dat keys d s path fs = none := by
  refine ⟨⟨_, rfl, ?_⟩, ?_, ⟨_, rfl, ?_⟩, by simp [writeFigureData, hk]⟩
  · simp only [FigFiles.put]
    rw [if_neg (data_ne_settings _ _), if_pos trivial]
  · have hw : (∃ fs', writeFigureData .csv keys d s path fs = some fs') ↔ sameLengths keys d = true := by
      simp only [writeFigureData]
      by_cases h : sameLengths keys d = true <;> simp [h]
    rw [hw]
    have hm : ∀ n, n ∈ (keys.filterMap fun k => (storedOf d k).columnLength) ↔ ∃ a ∈ keys, ∃ l, d a = some (.list l) ∧ l.length = n := by
      intro n
      simp only [List.mem_filterMap]
      refine exists_congr fun a => and_congr_right fun _ => ?_
      unfold storedOf
      rcases d a with _ | v
      · simp [FigVal.columnLength]
      · cases v <;> simp [FigVal.columnLength]
    have hall : sameLengths keys d = true ↔ ∀ m ∈ (keys.filterMap fun k => (storedOf d k).columnLength),
        ∀ n ∈ (keys.filterMap fun k => (storedOf d k).columnLength), m = n := by
      unfold sameLengths
      rcases keys.filterMap fun k => (storedOf d k).columnLength with _ | ⟨n, r⟩
      · simp
      · simp only [List.all_eq_true, beq_iff_eq]
        refine ⟨fun h a ha b hb => ?_, fun h x hx => h _ (by simp [hx]) _ (by simp)⟩
        have e : ∀ z ∈ n :: r, z = n := fun z hz => by
          rcases List.mem_cons.1 hz with rfl | hz
          · rfl
          · exact h z hz
        rw [e a ha, e b hb]
    rw [hall]
    refine ⟨fun h a ha b hb la lb h1 h2 => h _ ((hm _).2 ⟨a, ha, la, h1, rfl⟩) _ ((hm _).2 ⟨b, hb, lb, h2, rfl⟩), fun h m h1 n h2 => ?_⟩
    obtain ⟨a, ha, la, e1, rfl⟩ := (hm _).1 h1
    obtain ⟨b, hb, lb, e2, rfl⟩ := (hm _).1 h2
    exact h a ha b hb la lb e1 e2
  · intro q hq
    exact if_neg hq

/-- C184, `csv` with the default groups: without groups the merged groups are the empty list (`plot.py:1443-1453`), while
`x` has an entry for every record, so the program ends. -/
theorem C184_csv_ungrouped {S : Type} (keys : List String) (hx : "x" ∈ keys) (hg : "x_group" ∈ keys) (d : FigDatum) (s : S)
    (path : Txt) (fs : FigFiles S) (v : FigVal) (l : List FigVal) (h1 : d "x" = some (.list (v :: l))) (h2 : d "x_group" = some (.list [])) :
    writeFigureData .csv keys d s path fs = none := by
  by_cases h : ∃ fs', writeFigureData .csv keys d s path fs = some fs'
  · have := ((C184_formats keys (fun e => by simp [e] at hx) d s path fs).2.1.1 h) "x" hx "x_group" hg _ _ h1 h2
    simp at this
  · exact Option.eq_none_iff_forall_ne_some.2 fun fs' e => h ⟨fs', e⟩

end GeNSIT
