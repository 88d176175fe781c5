import Verif.Plot.Store
import Mathlib.Tactic.FinCases
import Mathlib.Data.Rat.Defs

/-!
# Drawing a figure again from its stored data (`gensit/plot.py`: `plot_simple`, `read_plot_data`, `data_plot`) (C185)

A drawing is what is handed to matplotlib for each record.  Continuous axes; subplots are the subject of C143.
-/

set_option linter.unusedSimpArgs false
set_option linter.unusedVariables false

namespace GeNSIT

/-- How a feature of the figure is read from the plot settings (`plot.py:575-608`): its default, whether a text is turned
into a number, and whether a value that is not iterable goes through `float`. -/
structure FeatureRule where
  default : FigVal
  numeric : Bool
  strict : Bool

/-- The features (`plot.py:575-608`). Left out: `colourmap` and `colourmap_midpoint`, which are overwritten from the
command's own settings (`plot.py:771-772`). -/
def figFeatures : List (String × FeatureRule) :=
  [("marker_size", ⟨.num 1, true, true⟩), ("colour", ⟨.str "black".toList, false, false⟩), ("opacity", ⟨.str "1.0".toList, true, false⟩),
   ("hatch_opacity", ⟨.str "1.0".toList, true, false⟩), ("zorder", ⟨.list [.num 1], true, false⟩), ("label", ⟨.list [.str []], false, false⟩),
   ("marker", ⟨.list [.str "o".toList], false, false⟩), ("line_style", ⟨.list [.str "-".toList], false, false⟩),
   ("line_width", ⟨.str "1.0".toList, true, false⟩), ("annotate", ⟨.str [], false, false⟩), ("hatch", ⟨.str [], false, false⟩)]

/-- `[float(v)] if isinstance(v, str) else v`, `[v] if isinstance(v, str) else v`, and for `marker_size`
`[float(v)] if not isinstance(v, Iterable) else v` (`plot.py:576-607`); `none` = exception. `toNum` is `float` on texts. -/
def FeatureRule.normalise (toNum : Txt → Option ℚ) (r : FeatureRule) (v : FigVal) : Option FigVal :=
  if r.strict then
    match v with
    | .null => none
    | .num x => some (.list [.num x])
    | w => some w
  else
    match v with
    | .str s => if r.numeric then (toNum s).map fun x => .list [.num x] else some (.list [.str s])
    | w => some w

/-- Python's truth of a value. -/
def FigVal.truthy : FigVal → Bool
  | .null => false
  | .num x => decide (x ≠ 0)
  | .str s => !s.isEmpty
  | .list l => !l.isEmpty

/-- `unpack_data(data, index)` (`misc_utils.py:1507-1514`); `none` = `IndexError`. -/
def unpackAt (v : FigVal) (i : ℕ) : Option FigVal :=
  if v.truthy then
    match v with
    | .list [a] => some a
    | .list l => l[i]?
    | .str [c] => some (.str [c])
    | .str s => (s[i]?).map fun c => .str [c]
    | w => some w
  else some v

/-- `[dt[0] for dt in plot_settings[var]]` (`plot.py:567`, `574`): the major data of each record. -/
def majorData : Option FigVal → Option (List FigVal)
  | some (.list l) => l.mapM fun v =>
    match v with
    | .list (a :: _) => some a
    | .str (c :: _) => some (.str [c])
    | _ => none
  | _ => none

/-- `len(plot_settings[f'{var}_group'])` (`plot.py:525`) can be taken. -/
def hasGroups : Option FigVal → Bool
  | some (.list _) => true
  | _ => false

/-- What is drawn for one record: its data and the value of each feature. -/
structure DrawnRecord where
  x : FigVal
  y : FigVal
  features : List (String × FigVal)

/-- `plot_simple` (`plot.py:514-775`) for plot settings `d`; `none` = exception. -/
def drawFigure (toNum : Txt → Option ℚ) (d : FigDatum) : Option (List DrawnRecord) := do
  guard (hasGroups (d "x_group") && hasGroups (d "y_group"))
  let xs ← majorData (d "x")
  let ys ← majorData (d "y")
  let fs ← figFeatures.mapM fun f => (f.2.normalise toNum ((d f.1).getD f.2.default)).map fun v => (f.1, v)
  (List.range ys.length).mapM fun i => do
    let x ← xs[i]?
    let y ← ys[i]?
    let vs ← fs.mapM fun f => (unpackAt f.2 i).map fun v => (f.1, v)
    pure ⟨x, y, vs⟩

/-- The keys of the stored data (`PLOT_COORDINATES_AND_CORE_FEATURES`, `static/plot_variables.py:2-27`; `outputs` aside). -/
def figKeys : List String :=
  ["x", "y", "z", "x_group", "y_group", "z_group", "marker_size", "line_width", "line_style", "colour", "opacity", "hatch_opacity",
   "zorder", "annotate", "label", "marker", "hatch"]

/-- What is read back from a stored `json` file: every key has an entry, possibly `None` (`misc_utils.py:170-176`,
`plot.py:1583-1590`). JSON itself is taken to give back numbers, texts and lists as written. -/
def rereadOf (d : FigDatum) : FigDatum := fun k => if k ∈ figKeys then some (storedOf d k) else none

/-- Drawing from data directories (`plot.py:1565-1640`, `1786-1804`, `522`): the stored figures of each directory. With
several directories `create_plot_filename` indexes a list with a text and raises; `plot_simple` draws the first. -/
def redraw (toNum : Txt → Option ℚ) (dirs : List (List FigDatum)) : Option (List DrawnRecord) :=
  match dirs with
  | [files] =>
    match files with
    | [] => none
    | f :: _ => drawFigure toNum (rereadOf f)
  | _ => none

/-- The full statement of C185: the figure drawn from the stored data is the figure drawn when it was stored. -/
def Spec.RedrawnAlike (toNum : Txt → Option ℚ) : Prop :=
  ∀ (d : FigDatum) (r : List DrawnRecord), drawFigure toNum d = some r → redraw toNum [[d]] = some r

theorem drawFigure_congr (toNum : Txt → Option ℚ) (d d' : FigDatum) (hx : d "x" = d' "x") (hy : d "y" = d' "y")
    (hg : hasGroups (d "x_group") = hasGroups (d' "x_group")) (hg' : hasGroups (d "y_group") = hasGroups (d' "y_group"))
    (hf : ∀ f ∈ figFeatures, (d f.1).getD f.2.default = (d' f.1).getD f.2.default) : drawFigure toNum d = drawFigure toNum d' := by
  have e : (figFeatures.mapM fun f => (f.2.normalise toNum ((d f.1).getD f.2.default)).map fun v => (f.1, v)) =
      figFeatures.mapM fun f => (f.2.normalise toNum ((d' f.1).getD f.2.default)).map fun v => (f.1, v) := by
    have hm : ∀ (l : List (String × FeatureRule)), (∀ f ∈ l, (d f.1).getD f.2.default = (d' f.1).getD f.2.default) →
        (l.mapM fun f => (f.2.normalise toNum ((d f.1).getD f.2.default)).map fun v => (f.1, v)) =
          l.mapM fun f => (f.2.normalise toNum ((d' f.1).getD f.2.default)).map fun v => (f.1, v) := by
      intro l hl
      induction l with
      | nil => rfl
      | cons a l ih => rw [List.mapM_cons, List.mapM_cons, hl a (by simp), ih (fun f h => hl f (by simp [h]))]
    exact hm _ hf
  unfold drawFigure
  rw [hx, hy, hg, hg', e]

theorem features_keys : ∀ f ∈ figFeatures, f.1 ∈ figKeys := by decide +kernel

/-- C185: figures whose every feature is stored are drawn alike again, whatever the number of records. -/
theorem C185_complete (toNum : Txt → Option ℚ) (d : FigDatum) (hf : ∀ f ∈ figFeatures, d f.1 ≠ none) (r : List DrawnRecord)
    (h : drawFigure toNum d = some r) : redraw toNum [[d]] = some r := by
  have hcoord : ∀ k ∈ figKeys, d k ≠ none → rereadOf d k = d k := by
    intro k hk hn
    obtain ⟨v, hv⟩ := Option.ne_none_iff_exists'.1 hn
    simp [rereadOf, hk, storedOf, hv]
  have hg : ∀ k, k ∈ figKeys → hasGroups (rereadOf d k) = hasGroups (d k) := by
    intro k hk
    rcases hv : d k with _ | v
    · simp [rereadOf, hk, storedOf, hv, hasGroups]
    · simp [rereadOf, hk, storedOf, hv]
  have hxy : d "x" ≠ none ∧ d "y" ≠ none := by
    unfold drawFigure at h
    refine ⟨fun e => ?_, fun e => ?_⟩
    · rw [e] at h
      cases hc : (hasGroups (d "x_group") && hasGroups (d "y_group")) <;> simp [majorData, hc, guard] at h
    · rw [e] at h
      cases hc : (hasGroups (d "x_group") && hasGroups (d "y_group")) <;> simp [majorData, hc, guard] at h
  show drawFigure toNum (rereadOf d) = some r
  rw [← h]
  refine drawFigure_congr toNum _ _ (hcoord _ (by decide) hxy.1) (hcoord _ (by decide) hxy.2) (hg _ (by decide)) (hg _ (by decide)) ?_
  intro f hm
  rw [hcoord f.1 (features_keys f hm) (hf f hm)]

theorem mapM_eq_none_of_mem {α β : Type} (g : α → Option β) : ∀ (l : List α) (a : α), a ∈ l → g a = none → l.mapM g = none
  | b :: l, a, h, e => by
    rw [List.mapM_cons]
    rcases List.mem_cons.1 h with rfl | h
    · simp [e]
    · rw [mapM_eq_none_of_mem g l a h e]
      cases g b <;> simp

/-- C185: a figure stored without marker sizes cannot be drawn again. -/
theorem C185_marker_size (toNum : Txt → Option ℚ) (d : FigDatum) (h : d "marker_size" = none) : redraw toNum [[d]] = none := by
  show drawFigure toNum (rereadOf d) = none
  have e : (figFeatures.mapM fun f => (f.2.normalise toNum ((rereadOf d f.1).getD f.2.default)).map fun v => (f.1, v)) = none := by
    refine mapM_eq_none_of_mem _ _ ("marker_size", ⟨.num 1, true, true⟩) (by simp [figFeatures]) ?_
    have : "marker_size" ∈ figKeys := by decide
    simp [rereadOf, this, storedOf, h, FeatureRule.normalise]
  unfold drawFigure
  rw [e]
  cases hc : (hasGroups (rereadOf d "x_group") && hasGroups (rereadOf d "y_group")) <;> simp [guard]

/-- C185: the value a feature has in the drawing of a record. -/
def featureAt (toNum : Txt → Option ℚ) (d : FigDatum) (f : String × FeatureRule) (i : ℕ) : Option FigVal :=
  (f.2.normalise toNum ((d f.1).getD f.2.default)).bind fun v => unpackAt v i

/-- C185, exact behaviour for any other feature that is not stored: nothing is handed over where the default was. -/
theorem C185_absent (toNum : Txt → Option ℚ) (d : FigDatum) (f : String × FeatureRule) (hf : f ∈ figFeatures) (hs : f.2.strict = false)
    (h : d f.1 = none) (i : ℕ) : featureAt toNum (rereadOf d) f i = some .null := by
  have := features_keys f hf
  simp [featureAt, rereadOf, this, storedOf, h, FeatureRule.normalise, hs, unpackAt, FigVal.truthy]

/-- C185: hatches and annotations that are not asked for stay empty. -/
theorem C185_harmless (toNum : Txt → Option ℚ) (d : FigDatum) (f : String × FeatureRule) (hf : f ∈ figFeatures)
    (hn : f.1 = "hatch" ∨ f.1 = "annotate") (h : d f.1 = none) (i : ℕ) :
    ∃ v w, featureAt toNum d f i = some v ∧ featureAt toNum (rereadOf d) f i = some w ∧ v.truthy = false ∧ w.truthy = false := by
  have hr : f.2 = ⟨.str [], false, false⟩ := by
    simp only [figFeatures, List.mem_cons, List.not_mem_nil, or_false] at hf
    rcases hf with rfl | rfl | rfl | rfl | rfl | rfl | rfl | rfl | rfl | rfl | rfl <;> simp at hn ⊢
  refine ⟨.str [], .null, ?_, C185_absent toNum d f hf (by rw [hr]) h i, rfl, rfl⟩
  simp [featureAt, h, hr, FeatureRule.normalise, unpackAt, FigVal.truthy]

/-- C185: the colour. It is not stored unless one is asked for (`main.py:664` has no default colour), is black in the
first drawing of every record, and left to matplotlib when drawn again. -/
theorem C185_colour (toNum : Txt → Option ℚ) (d : FigDatum) (h : d "colour" = none) (i : ℕ) :
    featureAt toNum d ("colour", ⟨.str "black".toList, false, false⟩) i = some (.str "black".toList) ∧
    featureAt toNum (rereadOf d) ("colour", ⟨.str "black".toList, false, false⟩) i = some .null := by
  refine ⟨by simp [featureAt, h, FeatureRule.normalise, unpackAt, FigVal.truthy], ?_⟩
  exact C185_absent toNum d _ (by simp [figFeatures]) rfl h i

/-- A figure of two records made with the command's defaults. -/
def exampleFigure : FigDatum := fun k =>
  match k with
  | "x" | "y" => some (.list [.list [.num 1], .list [.num 2]])
  | "x_group" | "y_group" | "z_group" => some (.list [])
  | "marker_size" | "line_width" | "opacity" | "hatch_opacity" | "zorder" => some (.list [.num 1, .num 2])
  | "line_style" => some (.list [.str "-".toList, .str "-".toList])
  | "marker" => some (.list [.str ".".toList, .str ".".toList])
  | "label" => some (.list [.str [], .str []])
  | _ => none

example : (drawFigure (fun _ => none) exampleFigure).isSome = true := by decide +kernel

example : ∃ d r, (∀ f ∈ figFeatures, d f.1 ≠ none) ∧ drawFigure (fun _ => none) d = some r := by
  refine ⟨fun k => if k = "x" ∨ k = "y" then some (.list [.list [.num 1]]) else some (.list []), _, ?_, rfl⟩
  intro f _
  by_cases h : f.1 = "x" ∨ f.1 = "y" <;> simp [h]

/-- C185, the negation: made with the command's defaults, a figure is not drawn alike again. -/
theorem C185_false (toNum : Txt → Option ℚ) : ¬ Spec.RedrawnAlike toNum := by
  intro H
  have h := H exampleFigure _ rfl
  have h2 := congrArg (fun o : Option (List DrawnRecord) => o.map fun l => l.map fun r => (r.features[1]?).map fun f => f.2.truthy) h
  revert h2
  show ¬ _
  simp [redraw, drawFigure, rereadOf, exampleFigure, figKeys, hasGroups, majorData, figFeatures, FeatureRule.normalise, storedOf,
    unpackAt, FigVal.truthy, guard, List.range, List.range.loop]

/-- C185: of the figures stored in the directory one is drawn, whatever figure is asked for. -/
theorem C185_first_only (toNum : Txt → Option ℚ) (f : FigDatum) (files : List FigDatum) :
    redraw toNum [f :: files] = drawFigure toNum (rereadOf f) := rfl

/-- C185: several data directories, which the option accepts, always end in an exception. -/
theorem C185_directories (toNum : Txt → Option ℚ) (dirs : List (List FigDatum)) (h : dirs.length ≠ 1) : redraw toNum dirs = none := by
  rcases dirs with _ | ⟨a, _ | ⟨b, l⟩⟩
  · rfl
  · simp at h
  · rfl

end GeNSIT
