import Verif.Plot.Store
import Verif.Sweep.Stringify
import Mathlib.Data.Rat.Encodable

/-!
# How values are shown in a figure (`gensit/plot.py: extract_plot_variable`; `misc_utils.py: latex_it, get_value`) (C193, C194)
-/

set_option linter.unusedSimpArgs false
set_option linter.unusedVariables false

namespace GeNSIT

/-! ### The tables of `static/plot_variables.py` -/

/-- `RAW_EXPRESSIONS` (`plot_variables.py:118-148`). -/
def rawExpressions : List (Txt × Txt) :=
  [("SIM_MCMC".toList, "\\ellamframeworktag".toList),
   ("JointTableSIM_MCMC".toList, "\\zachosframeworktag".toList),
   ("SIM_NN".toList, "\\gaskinframeworktag".toList),
   ("JointTableSIM_NN".toList, "\\frameworktag (Joint)".toList),
   ("NonJointTableSIM_NN".toList, "\\frameworktag (Disjoint)".toList),
   ("_unconstrained".toList, "$\\emptyset$".toList),
   ("_total_constrained".toList, "$\\mytabletotal$".toList),
   ("_total_intensity_row_table_constrained".toList, "$\\myintensitytotal,\\mytablerowsums$".toList),
   ("_row_constrained".toList, "$\\mytablerowsums$".toList),
   ("_doubly_constrained".toList, "$\\mytablerowsums,\\mytablecolsums$".toList),
   ("_doubly_10#%_cell_constrained".toList, "$\\mytablerowsums,\\mytablecolsums,\\mytablecells{_1}$".toList),
   ("_doubly_20#%_cell_constrained".toList, "$\\mytablerowsums,\\mytablecolsums,\\mytablecells{_2}$".toList),
   ("_doubly_10%_cell_constrained".toList, "$\\mytablerowsums,\\mytablecolsums,\\mytablecells{_1}$".toList),
   ("_doubly_20%_cell_constrained".toList, "$\\mytablerowsums,\\mytablecolsums,\\mytablecells{_2}$".toList),
   ("TotallyConstrained".toList, "$\\myintensitytotal$".toList),
   ("ProductionConstrained".toList, "$\\myintensityrowsums$".toList),
   ("dest_attraction_ts_likelihood_loss".toList, "$\\lossoperator\\left(\\mylogdestattr \\; ; \\; \\obsdata, \\boldsymbol{\\nu} \\right)$".toList),
   ("dest_attraction_ts_likelihood_loss,table_likelihood_loss".toList, "$\\lossoperator\\left(\\mylogdestattr, \\mytable, \\myintensity \\; ; \\; \\obsdata, \\boldsymbol{\\nu} \\right)$".toList),
   ("dest_attraction_ts_likelihood_loss,total_intensity_distance_likelihood_loss,table_likelihood_loss".toList, "$\\lossoperator\\left(\\mylogdestattr,\\mytable,\\myintensity \\; ; \\; \\obsdata^{\\myintensityoned}, \\boldsymbol{\\nu} \\right)$".toList),
   ("dest_attraction_ts_likelihood_loss,total_intensity_distance_likelihood_loss".toList, "$\\lossoperator\\left(\\mylogdestattr, \\myintensity \\; ; \\; \\obsdata^{\\myintensityoned}, \\boldsymbol{\\nu} \\right)$".toList),
   ("dest_attraction_ts_likelihood_loss,total_table_distance_likelihood_loss,table_likelihood_loss".toList, "$\\lossoperator\\left(\\mylogdestattr,\\mytable,\\myintensity \\; ; \\; \\obsdata^{\\mytableoned}, \\boldsymbol{\\nu} \\right)$".toList),
   ("dest_attraction_ts_likelihood_loss,total_table_distance_likelihood_loss".toList, "$\\lossoperator\\left(\\mylogdestattr, \\mytable \\; ; \\; \\obsdata^{\\mytableoned}, \\boldsymbol{\\nu} \\right)$".toList),
   ("table_likelihood_loss".toList, "$\\lossoperator\\left(\\mytable, \\myintensity \\right)$".toList),
   ("total_intensity_distance_likelihood_loss,table_likelihood_loss".toList, "$\\lossoperator\\left(\\mytable,\\myintensity \\; ; \\; \\obsdata^{\\myintensityoned}, \\boldsymbol{\\nu} \\right)$".toList),
   ("total_intensity_distance_likelihood_loss".toList, "$\\lossoperator\\left( \\myintensity \\; ; \\; \\obsdata^{\\myintensityoned}, \\boldsymbol{\\nu} \\right)$".toList),
   ("total_intensity_distance_loss".toList, "$\\lossoperator\\left( \\myintensity \\; ; \\; \\obsdata^{\\myintensityoned} \\right)$".toList),
   ("total_table_distance_likelihood_loss,table_likelihood_loss".toList, "$\\lossoperator\\left(\\mytable,\\myintensity \\; ; \\; \\obsdata^{\\mytableoned}, \\boldsymbol{\\nu} \\right)$".toList),
   ("total_table_distance_likelihood_loss".toList, "$\\lossoperator\\left(\\mytable \\; ; \\; \\obsdata^{\\mytableoned}, \\boldsymbol{\\nu} \\right)$".toList),
   ("total_table_distance_loss".toList, "$\\lossoperator\\left(\\mytable \\; ; \\; \\obsdata^{\\mytableoned} \\right)$".toList)]

/-- `LABEL_EXPRESSIONS` (`plot_variables.py:149-151`). -/
def labelExpressions : List (String × Txt) := [("sigma", "$\\sigma = ".toList)]

/-- `PLOT_MARKERS` (`plot_variables.py:45-64`): for each metadata key the text for any other value, and the listed values. -/
def plotMarkers : List (String × Txt × List (Txt × Txt)) :=
  [("sample_name", ".".toList,
     [("else".toList, ".".toList),
      ("table".toList, "s".toList),
      ("intensity".toList, "^".toList)]),
   ("type", ".".toList,
     [("else".toList, ".".toList),
      ("SIM_MCMC".toList, "o".toList),
      ("JointTableSIM_MCMC".toList, "s".toList),
      ("SIM_NN".toList, "^".toList),
      ("NonJointTableSIM_NN".toList, "P".toList),
      ("JointTableSIM_NN".toList, "*".toList)]),
   ("sigma", ">".toList,
     [("else".toList, ">".toList),
      ("low".toList, "v".toList),
      ("high".toList, "^".toList)])]

/-- `PLOT_HATCHES` (`plot_variables.py:99-113`): for each metadata key the text for any other value, and the listed values. -/
def plotHatches : List (String × Txt × List (Txt × Txt)) :=
  [("sigma", "***".toList,
     [("else".toList, "***".toList),
      ("high".toList, "+++".toList),
      ("low".toList, "OOO".toList)]),
   ("type", ".".toList,
     [("else".toList, ".".toList),
      ("SIM_MCMC".toList, "oo".toList),
      ("JointTableSIM_MCMC".toList, "..".toList),
      ("SIM_NN".toList, "-".toList),
      ("NonJointTableSIM_NN".toList, "++".toList),
      ("JointTableSIM_NN".toList, "**".toList)])]

/-- `PLOT_COLOURS` (`plot_variables.py:78-97`). -/
def plotColours : List (String × List (Txt × Txt)) :=
  [("type",
     [("SIM_MCMC".toList, "#5856c4".toList),
      ("SIM_NN".toList, "#e0ad41".toList),
      ("JointTableSIM_MCMC".toList, "#a6c858".toList),
      ("NonJointTableSIM_NN".toList, "#ca4a58".toList),
      ("JointTableSIM_NN".toList, "#8ebeda".toList)]),
   ("title",
     [("_unconstrained".toList, "#C0C0C0".toList),
      ("_total_constrained".toList, "#5856c4".toList),
      ("_row_constrained".toList, "#a6c858".toList),
      ("_total_intensity_row_table_constrained".toList, "#a6c858".toList),
      ("_doubly_constrained".toList, "#e0ad41".toList),
      ("_doubly_10#%_cell_constrained".toList, "#ca4a58".toList),
      ("_doubly_20#%_cell_constrained".toList, "#8ebeda".toList),
      ("_doubly_10%_cell_constrained".toList, "#ca4a58".toList),
      ("_doubly_20%_cell_constrained".toList, "#8ebeda".toList)])]

/-- `PLOT_LINESTYLES` (`plot_variables.py:115`). -/
def plotLineStyles : List (String × Txt × List (Txt × Txt)) := []

/-! ### Values as text -/

/-- What `unstringify` (`misc_utils.py:708-713`) makes of a text: `eval` fails and the text is kept, or it yields data, or
it yields some other object (a class, function or module of `misc_utils`), of which only `str(object)` matters. -/
inductive Evaluated where
  | kept
  | data (v : FigVal)
  | object (t : Txt)

/-- Python's conversions: `str`, `eval`, `string_to_numeric` (`misc_utils.py:1053-1056`) and `float` of a text. -/
structure PyText where
  str : FigVal → Txt
  eval : Txt → Evaluated
  number : Txt → Option FigVal
  float : Txt → Option ℚ

/-- `np.round(value, digits)`. -/
def roundDigits (digits : ℕ) (q : ℚ) : ℚ :=
  if q < 0 then -((roundEven (-q * 10 ^ digits) : ℚ) / 10 ^ digits) else (roundEven (q * 10 ^ digits) : ℚ) / 10 ^ digits

/-- `parse(value, default, ndigits)` (`misc_utils.py:338-354`); the rounding to 32 bits is left out. Whole numbers are not
rounded, which makes no difference. -/
def parseShown (P : PyText) (default : FigVal) (digits : ℕ) : FigVal → FigVal
  | .null => default
  | .num q => .num (roundDigits digits q)
  | .str s => if s = [] then default else (P.number s).getD (.str s)
  | .list l => .str (P.str (.list l))

/-- `label.replace('  ', ' ')`. -/
def halveSpaces : Txt → Txt
  | ' ' :: ' ' :: r => ' ' :: halveSpaces r
  | c :: r => c :: halveSpaces r
  | [] => []

/-- `tidy_label` (`misc_utils.py:1215-1222`). -/
def tidyLabel (s : Txt) : Txt :=
  halveSpaces ((s.map fun c => if c = '_' then ' ' else c).map fun c => if c = ',' then '_' else c)

/-- `latex_it` (`misc_utils.py:1227-1236`); the third branch tidies `str()`, not the value. -/
def latexIt (P : PyText) (key : String) (default : FigVal) (v : FigVal) : FigVal :=
  match rawExpressions.lookup (P.str v) with
  | some e => .str e
  | none =>
    match labelExpressions.lookup key with
    | some e => .str (e ++ P.str (parseShown P default 3 v) ++ "$".toList)
    | none =>
      match v with
      | .str _ => .str (tidyLabel [])
      | w => w

/-- `sigma_to_noise_regime` (`misc_utils.py:1058-1071`) of a value; `none` = exception. -/
def regimeOf : FigVal → Option Txt
  | .null => some (noiseRegime .none)
  | .num q => some (noiseRegime (.num q))
  | .str s => some (noiseRegime (.other s))
  | .list [] => some "learned".toList
  | .list (_ :: _) => none

/-- The result of `unstringify`. -/
def evaluated (P : PyText) (s : Txt) : FigVal :=
  match P.eval s with
  | .kept => .str s
  | .data v => v
  | .object t => .str t

/-- `get_value(meta, k, default, apply_latex)` (`misc_utils.py:991-1012`); `none` = exception. -/
def getShown (P : PyText) (md : String → Option FigVal) (k : String) (default : FigVal) (latex : Bool) : Option FigVal :=
  let v := (md k).getD default
  (if k = "sigma" then (regimeOf v).map FigVal.str else some v).map fun w =>
    match w with
    | .str s => if latex then latexIt P k default (.str s) else evaluated P s
    | u => u

/-! ### Coordinates -/

/-- The loop over the variables of one group (`plot.py:1192-1233`): inner `none` = a variable is not in the metadata,
outer `none` = exception. -/
def groupValues (P : PyText) (md : String → Option FigVal) : List String → Option (Option (List FigVal))
  | [] => some (some [])
  | k :: ks =>
    match md k with
    | none => some none
    | some _ =>
      match getShown P md k .null true with
      | none => none
      | some v =>
        match groupValues P md ks with
        | some (some vs) => some (some (v :: vs))
        | r => r

/-- One group of a coordinate (`plot.py:1177-1245`); `core`: `x`, `y`, `z` rather than `x_group`, `y_group`, `z_group`.
Data frames are left out; the default of `get_value` is never used since the variable is in the metadata. -/
def coordinateGroup (P : PyText) (core : Bool) (md : String → Option FigVal) (grp : List String) :
    Option (Option FigVal) :=
  match grp, groupValues P md grp with
  | [_], some (some [v]) => some (some v)
  | [], _ => some (some (.list []))
  | _, some (some vs) =>
    if core then some (some (.list vs))
    else some (some (.str ('(' :: List.intercalate ", ".toList (vs.map P.str) ++ [')'])))
  | _, some none => some none
  | _, none => none

/-- The label of a record (`plot.py:1247-1259`): `none` = exception (a key that is not in the metadata, or a value that
`join` cannot join). `defaults` is the default in `DATA_SCHEMA`. -/
def labelOf (P : PyText) (defaults : String → FigVal) (md : String → Option FigVal) (keys : List String) : Option Txt :=
  ((keys.filter fun k => k ≠ "").mapM fun k =>
    match md k with
    | none => none
    | some v =>
      match latexIt P k (defaults k) v with
      | .str t => some t
      | _ => none).map (List.intercalate ", ".toList)

/-! ### Features -/

/-- The core features (`plot_variables.py:5-17`) apart from `label` and `zorder`; the sizes, widths and opacities are `number`. -/
inductive FeatureName where
  | marker
  | hatch
  | lineStyle
  | colour
  | annotate
  | number
  deriving DecidableEq

/-- Looking a value up in the global settings (`plot.py:1296-1310`); `none` = `KeyError`. -/
def fromTable (P : PyText) (table : List (String × Txt × List (Txt × Txt))) (key : String) (default : Txt) (v : FigVal) :
    Option FigVal :=
  (table.lookup key).map fun rows => .str ((rows.2.lookup (P.str (parseShown P (.str default) 3 v))).getD rows.1)

/-- A feature taken from the metadata (`plot.py:1287-1313`). -/
def featureByKey (P : PyText) (f : FeatureName) (md : String → Option FigVal) (key : String) : Option FigVal :=
  (getShown P md key .null (f = .annotate)).bind fun v =>
    match f with
    | .marker => fromTable P plotMarkers key ".".toList v
    | .hatch => fromTable P plotHatches key "+++".toList v
    | .lineStyle => fromTable P plotLineStyles key "-".toList v
    | .colour =>
      match v with
      | .str s => some (.str ((((plotColours.lookup key).getD []).lookup s).getD s))
      | .list l => if key ∈ plotColours.map Prod.fst then none else some (.list l)
      | w => some w
    | _ => some v

/-- A feature given as text: a key of the metadata, or else the feature itself (`plot.py:1282-1320`). -/
def featureByText (P : PyText) (f : FeatureName) (md : String → Option FigVal) (s : String) : Option (Option FigVal) :=
  if s = "" then some none
  else if md s = none then
    if f = .number then (P.float s.toList).map fun q => some (.num q) else some (some (.str s.toList))
  else (featureByKey P f md s).map some

/-- A feature of a record (`plot.py:1274-1326`): inner `none` = nothing to show, outer `none` = exception. The setting goes
through `unstringify` first. Tuples are left out. -/
def featureOf (P : PyText) (f : FeatureName) (setting : String) (md : String → Option FigVal) : Option (Option FigVal) :=
  match P.eval setting.toList with
  | .kept => featureByText P f md setting
  | .data (.str k) => featureByText P f md (String.ofList k)
  | .data .null => some none
  | .data (.num q) =>
    if q = 0 then some none
    else if f = .number then some (some (.num q)) else some (some (.str (P.str (.num q))))
  | .data (.list []) => some none
  | .data (.list (_ :: _)) => none
  | .object t => if f = .number then none else some (some (.str t))

/-! ### Specification -/

/-- What is true of Python's conversions. -/
structure Spec.GoodText (P : PyText) : Prop where
  text : ∀ s, P.str (.str s) = s
  head : ∀ q, ∃ c r, P.str (.num q) = c :: r ∧ (c.isDigit = true ∨ c = '-')
  inj : ∀ p q, P.str (.num p) = P.str (.num q) → p = q
  comma : ∀ q, ',' ∉ P.str (.num q) ∧ ' ' ∉ P.str (.num q)
  words : ∀ w ∈ ["learned".toList, "low".toList, "high".toList], P.number w = none ∧ P.eval w = .kept

/-- Records with different values of `k` are shown with different coordinates. -/
def Spec.TellsApart (P : PyText) (core : Bool) (k : String) (values : FigVal → Prop) : Prop :=
  ∀ md md' : String → Option FigVal, ∀ v v', md k = some v → md' k = some v' → values v → values v' →
    v ≠ v' → coordinateGroup P core md [k] ≠ coordinateGroup P core md' [k]

/-- A value is a number; a text. -/
def Spec.IsNumberVal (v : FigVal) : Prop := ∃ q, v = .num q
def Spec.IsTextVal (v : FigVal) : Prop := ∃ s, v = .str s

/-- The text that stands for a text in figures; empty if there is none. -/
def Spec.expressionOf (s : Txt) : Txt := (rawExpressions.lookup s).getD []

/-! ### Proofs -/

theorem raw_heads : ∀ e ∈ rawExpressions, ∀ c ∈ e.1.head?, c.isDigit = false ∧ c ≠ '-' := by decide +kernel

theorem raw_keys_nonempty : ∀ e ∈ rawExpressions, e.1 ≠ [] ∧ e.2 ≠ [] := by decide +kernel

theorem mem_of_lookup {α β : Type} [BEq α] [LawfulBEq α] : ∀ (l : List (α × β)) (a : α) (b : β), l.lookup a = some b → (a, b) ∈ l
  | [], a, b, h => by simp at h
  | (x, y) :: l, a, b, h => by
    rw [List.lookup_cons] at h
    by_cases hx : a = x
    · subst hx
      simp at h
      simp [h]
    · have : (a == x) = false := by simpa using hx
      rw [this] at h
      exact List.mem_cons_of_mem _ (mem_of_lookup l a b h)

theorem raw_number {P : PyText} (hP : Spec.GoodText P) (q : ℚ) : rawExpressions.lookup (P.str (.num q)) = none := by
  rw [Option.eq_none_iff_forall_ne_some]
  intro e he
  obtain ⟨c, r, hc, hd⟩ := hP.head q
  have h := raw_heads _ (mem_of_lookup _ _ _ he) c (by simp [hc])
  rcases hd with hd | hd
  · rw [h.1] at hd; exact absurd hd (by simp)
  · exact h.2 hd

theorem raw_words : ∀ w ∈ ["learned".toList, "low".toList, "high".toList], rawExpressions.lookup w = none := by decide +kernel

theorem label_lookup (k : String) (hk : k ≠ "sigma") : labelExpressions.lookup k = none := by
  have : (k == "sigma") = false := by simpa using hk
  simp only [labelExpressions, List.lookup_cons, this, List.lookup_nil]

theorem shown_number {P : PyText} (hP : Spec.GoodText P) (md : String → Option FigVal) (k : String) (hk : k ≠ "sigma") (q : ℚ)
    (h : md k = some (.num q)) : getShown P md k .null true = some (.num q) := by
  simp [getShown, h, hk]

theorem shown_text {P : PyText} (hP : Spec.GoodText P) (md : String → Option FigVal) (k : String) (hk : k ≠ "sigma") (s : Txt)
    (h : md k = some (.str s)) : getShown P md k .null true = some (.str (Spec.expressionOf s)) := by
  simp only [getShown, h, hk, if_false, Option.getD_some, Option.map_some, if_true, latexIt, hP.text, label_lookup k hk, Spec.expressionOf]
  cases rawExpressions.lookup s <;> simp [tidyLabel, halveSpaces]

theorem group_single (P : PyText) (core : Bool) (md : String → Option FigVal) (k : String) (v w : FigVal) (h : md k = some v)
    (hs : getShown P md k .null true = some w) : coordinateGroup P core md [k] = some (some w) := by
  simp [coordinateGroup, groupValues, h, hs]

/-- **C193**: numbers other than `sigma` are shown as they are. -/
theorem C193_numbers {P : PyText} (hP : Spec.GoodText P) (core : Bool) (k : String) (hk : k ≠ "sigma") :
    Spec.TellsApart P core k Spec.IsNumberVal := by
  rintro md md' v v' h h' ⟨q, rfl⟩ ⟨q', rfl⟩ hne he
  rw [group_single P core md k _ _ h (shown_number hP md k hk q h),
    group_single P core md' k _ _ h' (shown_number hP md' k hk q' h')] at he
  exact hne (by simpa using he)

/-- **C193**: a text is shown as the expression listed for it, and as the empty text if none is listed. -/
theorem C193_text {P : PyText} (hP : Spec.GoodText P) (core : Bool) (md : String → Option FigVal) (k : String) (hk : k ≠ "sigma")
    (s : Txt) (h : md k = some (.str s)) : coordinateGroup P core md [k] = some (some (.str (Spec.expressionOf s))) :=
  group_single P core md k _ _ h (shown_text hP md k hk s h)

theorem expression_nil_iff (s : Txt) : Spec.expressionOf s = [] ↔ rawExpressions.lookup s = none := by
  unfold Spec.expressionOf
  cases h : rawExpressions.lookup s with
  | none => simp
  | some e => simpa using (raw_keys_nonempty _ (mem_of_lookup _ _ _ h)).2

/-- **C193**: two texts are shown apart just when one of them is listed and their expressions differ. -/
theorem C193_text_iff {P : PyText} (hP : Spec.GoodText P) (core : Bool) (md md' : String → Option FigVal) (k : String)
    (hk : k ≠ "sigma") (s s' : Txt) (h : md k = some (.str s)) (h' : md' k = some (.str s')) :
    coordinateGroup P core md [k] ≠ coordinateGroup P core md' [k] ↔ rawExpressions.lookup s ≠ rawExpressions.lookup s' := by
  rw [C193_text hP core md k hk s h, C193_text hP core md' k hk s' h']
  have h1 := expression_nil_iff s
  have h2 := expression_nil_iff s'
  unfold Spec.expressionOf at *
  cases ha : rawExpressions.lookup s <;> cases hb : rawExpressions.lookup s' <;> simp [ha, hb] at h1 h2 ⊢
  · exact fun e => h2 e
  · exact h1

/-- **C193** fails: texts that are not listed are all shown as the empty text. -/
theorem C193_false {P : PyText} (hP : Spec.GoodText P) (core : Bool) (k : String) (hk : k ≠ "sigma") :
    ¬ Spec.TellsApart P core k Spec.IsTextVal := fun H => by
  have h := H (fun _ => some (.str "cambridge".toList)) (fun _ => some (.str "washington".toList)) _ _ rfl rfl ⟨_, rfl⟩ ⟨_, rfl⟩
    (by simp)
  rw [C193_text_iff hP core _ _ k hk _ _ rfl rfl] at h
  exact h (by decide +kernel)

/-- **C193** fails among the listed texts too: two titles have one expression. -/
theorem C193_titles_false {P : PyText} (hP : Spec.GoodText P) (core : Bool) :
    coordinateGroup P core (fun _ => some (.str "_doubly_10%_cell_constrained".toList)) ["title"] =
      coordinateGroup P core (fun _ => some (.str "_doubly_10#%_cell_constrained".toList)) ["title"] := by
  rw [C193_text hP core _ "title" (by decide) _ rfl, C193_text hP core _ "title" (by decide) _ rfl]
  have : Spec.expressionOf "_doubly_10%_cell_constrained".toList = Spec.expressionOf "_doubly_10#%_cell_constrained".toList := by
    decide +kernel
  rw [this]

theorem regime_words (q : ℚ) : noiseRegime (.num q) ∈ ["learned".toList, "low".toList, "high".toList] := by
  unfold noiseRegime
  dsimp only
  split_ifs <;> simp

theorem latex_sigma {P : PyText} (hP : Spec.GoodText P) (w : Txt) (hw : w ∈ ["learned".toList, "low".toList, "high".toList]) :
    latexIt P "sigma" .null (.str w) = .str ("$\\sigma = ".toList ++ w ++ "$".toList) := by
  have hne : w ≠ [] := by
    rintro rfl
    simp at hw
  have hl : labelExpressions.lookup "sigma" = some "$\\sigma = ".toList := by decide +kernel
  simp only [latexIt, hP.text, raw_words w hw, hl, parseShown, if_neg hne, (hP.words w hw).1, Option.getD_none]

/-- **C193**: `sigma` is shown as its noise regime: two numbers are shown apart just when their regimes differ. -/
theorem C193_sigma_iff {P : PyText} (hP : Spec.GoodText P) (core : Bool) (md md' : String → Option FigVal) (q q' : ℚ)
    (h : md "sigma" = some (.num q)) (h' : md' "sigma" = some (.num q')) :
    coordinateGroup P core md ["sigma"] ≠ coordinateGroup P core md' ["sigma"] ↔ noiseRegime (.num q) ≠ noiseRegime (.num q') := by
  have hs : ∀ (m : String → Option FigVal) (x : ℚ), m "sigma" = some (.num x) →
      getShown P m "sigma" .null true = some (.str ("$\\sigma = ".toList ++ noiseRegime (.num x) ++ "$".toList)) := by
    intro m x hm
    simp only [getShown, hm, if_true, Option.getD_some, regimeOf, Option.map_some, latex_sigma hP _ (regime_words x)]
  rw [group_single P core md _ _ _ h (hs md q h), group_single P core md' _ _ _ h' (hs md' q' h')]
  simp

/-- **C193** fails for the numbers of `sigma`. -/
theorem C193_sigma_false {P : PyText} (hP : Spec.GoodText P) (core : Bool) : ¬ Spec.TellsApart P core "sigma" Spec.IsNumberVal := fun H => by
  have h := H (fun _ => some (.num 1)) (fun _ => some (.num 2)) _ _ rfl rfl ⟨_, rfl⟩ ⟨_, rfl⟩ (by simp)
  rw [C193_sigma_iff hP core _ _ 1 2 rfl rfl] at h
  exact h (by norm_num [noiseRegime])

/-! #### Several variables -/

theorem groupValues_eq (P : PyText) (md : String → Option FigVal) (f : String → FigVal) : ∀ ks : List String,
    (∀ k ∈ ks, md k ≠ none ∧ getShown P md k .null true = some (f k)) → groupValues P md ks = some (some (ks.map f))
  | [], _ => rfl
  | k :: ks, h => by
    obtain ⟨v, hv⟩ := Option.ne_none_iff_exists'.1 (h k (by simp)).1
    simp only [groupValues, hv, (h k (by simp)).2, groupValues_eq P md f ks fun k' hk' => h k' (by simp [hk']), List.map_cons]

theorem shown_intercalate_cons (a : Txt) (l : List Txt) (hl : l ≠ []) :
    List.intercalate ", ".toList (a :: l) = a ++ ',' :: (' ' :: List.intercalate ", ".toList l) := by
  cases l with
  | nil => exact absurd rfl hl
  | cons b l => simp [List.intercalate, List.intersperse]

theorem shown_intercalate_inj : ∀ (l l' : List Txt), l.length = l'.length → (∀ t ∈ l, ',' ∉ t) → (∀ t ∈ l', ',' ∉ t) →
    List.intercalate ", ".toList l = List.intercalate ", ".toList l' → l = l'
  | [], [], _, _, _, _ => rfl
  | [], _ :: _, hl, _, _, _ => by simp at hl
  | _ :: _, [], hl, _, _, _ => by simp at hl
  | [a], [b], _, _, _, h => by simpa [List.intercalate, List.intersperse] using h
  | [_], _ :: _ :: _, hl, _, _, _ => by simp at hl
  | _ :: _ :: _, [_], hl, _, _, _ => by simp at hl
  | a :: a2 :: l, b :: b2 :: l', hl, h1, h2, h => by
    rw [shown_intercalate_cons a _ (by simp), shown_intercalate_cons b _ (by simp)] at h
    obtain ⟨e, e2⟩ := cut_inj ',' (h1 a (by simp)) (h2 b (by simp)) h
    rw [e, shown_intercalate_inj (a2 :: l) (b2 :: l') (by simpa using hl) (fun t ht => h1 t (by simp [ht])) (fun t ht => h2 t (by simp [ht]))
      (by simpa using e2)]

/-- **C193**: several variables with numbers: the records are shown apart just when some number differs. -/
theorem C193_group_iff {P : PyText} (hP : Spec.GoodText P) (core : Bool) (ks : List String) (hk : "sigma" ∉ ks)
    (n n' : String → ℚ) :
    coordinateGroup P core (fun k => some (.num (n k))) ks ≠ coordinateGroup P core (fun k => some (.num (n' k))) ks ↔
      ∃ k ∈ ks, n k ≠ n' k := by
  have hg : ∀ m : String → ℚ, groupValues P (fun k => some (.num (m k))) ks = some (some (ks.map fun k => .num (m k))) := fun m =>
    groupValues_eq P _ _ ks fun k hks => ⟨by simp, shown_number hP _ k (fun e => hk (e ▸ hks)) _ rfl⟩
  have key : coordinateGroup P core (fun k => some (.num (n k))) ks = coordinateGroup P core (fun k => some (.num (n' k))) ks ↔
      ∀ k ∈ ks, n k = n' k := by
    match ks, hg with
    | [], _ => simp [coordinateGroup]
    | [k], hg => simp [coordinateGroup, hg]
    | k :: k2 :: ks, hg =>
      have hc : ∀ m : String → ℚ, coordinateGroup P core (fun k => some (.num (m k))) (k :: k2 :: ks) =
          if core then some (some (.list ((k :: k2 :: ks).map fun k => .num (m k))))
          else some (some (.str ('(' :: List.intercalate ", ".toList (((k :: k2 :: ks).map fun k => FigVal.num (m k)).map P.str) ++ [')']))) := by
        intro m
        simp only [coordinateGroup, hg m]
      rw [hc n, hc n']
      cases core with
      | true =>
        simp only [if_true, Option.some.injEq, FigVal.list.injEq]
        rw [List.map_inj_left]
        simp
      | false =>
        simp only [Bool.false_eq_true, if_false, Option.some.injEq, FigVal.str.injEq, List.append_cancel_right_eq, List.cons.injEq, true_and]
        constructor
        · intro h
          have := shown_intercalate_inj _ _ (by simp) (by simp only [List.map_map, List.mem_map]; rintro t ⟨x, _, rfl⟩; exact (hP.comma _).1)
            (by simp only [List.map_map, List.mem_map]; rintro t ⟨x, _, rfl⟩; exact (hP.comma _).1) h
          rw [List.map_map, List.map_map, List.map_inj_left] at this
          exact fun x hx => hP.inj _ _ (this x hx)
        · intro h
          have : (k :: k2 :: ks).map (fun k => FigVal.num (n k)) = (k :: k2 :: ks).map (fun k => FigVal.num (n' k)) :=
            List.map_congr_left fun x hx => by rw [h x hx]
          rw [this]
  rw [Ne, key]
  push Not
  rfl

/-- **C193**: a variable that the metadata of a record lacks takes the coordinate away from that record. -/
theorem C193_missing {P : PyText} (core : Bool) (md : String → Option FigVal) (ks ks' : List String) (k : String) (hk : md k = none)
    (h : ∀ k' ∈ ks, md k' ≠ none ∧ getShown P md k' .null true ≠ none) :
    coordinateGroup P core md (ks ++ k :: ks') = some none := by
  have hg : ∀ l : List String, (∀ k' ∈ l, md k' ≠ none ∧ getShown P md k' .null true ≠ none) →
      groupValues P md (l ++ k :: ks') = some none := by
    intro l
    induction l with
    | nil => intro _; simp [groupValues, hk]
    | cons a l ih =>
      intro hl
      obtain ⟨v, hv⟩ := Option.ne_none_iff_exists'.1 (hl a (by simp)).1
      obtain ⟨w, hw⟩ := Option.ne_none_iff_exists'.1 (hl a (by simp)).2
      simp only [List.cons_append, groupValues, hv, hw, ih fun k' hk' => hl k' (by simp [hk'])]
  have := hg ks h
  cases ks with
  | nil => simp only [List.nil_append] at this ⊢; simp only [coordinateGroup, this]
  | cons a l => simp only [List.cons_append] at this ⊢; simp only [coordinateGroup, this]

/-! #### Labels -/

/-- **C193**: a record gets a label just when each key has a value that is a text, is listed, or is that of `sigma`. -/
theorem C193_label_iff {P : PyText} (defaults : String → FigVal) (md : String → Option FigVal) (keys : List String) :
    labelOf P defaults md keys ≠ none ↔ ∀ k ∈ keys, k ≠ "" → ∃ v, md k = some v ∧
      (rawExpressions.lookup (P.str v) ≠ none ∨ k = "sigma" ∨ Spec.IsTextVal v) := by
  have hm : ∀ (g : String → Option Txt) (l : List String), l.mapM g ≠ none ↔ ∀ k ∈ l, g k ≠ none := by
    intro g l
    induction l with
    | nil => simp
    | cons a l ih =>
      rw [List.mapM_cons]
      cases ha : g a with
      | none => simp [ha]
      | some x =>
        cases hb : l.mapM g with
        | none =>
          rw [hb] at ih
          simp only [ne_eq, not_true_eq_false, false_iff] at ih
          simp [ha]
          push Not at ih
          simpa using ih
        | some y =>
          rw [hb] at ih
          simp at ih
          simp [ha]
          exact ih
  unfold labelOf
  rw [Ne, Option.map_eq_none_iff, ← Ne, hm]
  simp only [List.mem_filter, decide_eq_true_eq, and_imp]
  refine forall_congr' fun k => forall_congr' fun _ => forall_congr' fun hk => ?_
  cases hv : md k with
  | none => simp
  | some v =>
    simp only [Option.some.injEq, exists_eq_left']
    unfold latexIt
    cases hr : rawExpressions.lookup (P.str v) with
    | some e => simp
    | none =>
      by_cases hs : k = "sigma"
      · subst hs
        have hl : labelExpressions.lookup "sigma" = some "$\\sigma = ".toList := by decide +kernel
        simp [hl]
      · simp only [label_lookup k hs, ne_eq, not_true_eq_false, hs, false_or, Spec.IsTextVal]
        cases v <;> simp

/-- **C193** fails for labels: a number as the value of a label key raises. -/
theorem C193_label_number_false {P : PyText} (hP : Spec.GoodText P) (defaults : String → FigVal) (md : String → Option FigVal)
    (keys : List String) (k : String) (hm : k ∈ keys) (hk : k ≠ "") (hs : k ≠ "sigma") (q : ℚ) (h : md k = some (.num q)) :
    labelOf P defaults md keys = none := by
  by_contra hne
  obtain ⟨v, hv, hc⟩ := (C193_label_iff defaults md keys).1 hne k hm hk
  rw [h, Option.some.injEq] at hv
  subst hv
  rcases hc with hc | hc | ⟨s, hc⟩
  · exact hc (raw_number hP q)
  · exact hs hc
  · cases hc

/-- **C193**: the label by one text is its expression. -/
theorem C193_label_text {P : PyText} (hP : Spec.GoodText P) (defaults : String → FigVal) (md : String → Option FigVal) (k : String)
    (hk : k ≠ "") (hs : k ≠ "sigma") (s : Txt) (h : md k = some (.str s)) :
    labelOf P defaults md [k] = some (Spec.expressionOf s) := by
  simp only [labelOf, List.filter_cons, hk, ne_eq, not_false_eq_true, decide_true, if_true, List.filter_nil, List.mapM_cons, List.mapM_nil,
    h, latexIt, hP.text, label_lookup k hs, Spec.expressionOf]
  cases rawExpressions.lookup s <;> simp [tidyLabel, halveSpaces, List.intercalate, List.intersperse]

/-- **C193**: labels by `sigma`: two numbers are labelled apart just when they differ after rounding to three decimals. -/
theorem C193_label_sigma_iff {P : PyText} (hP : Spec.GoodText P) (defaults : String → FigVal) (md md' : String → Option FigVal)
    (q q' : ℚ) (h : md "sigma" = some (.num q)) (h' : md' "sigma" = some (.num q')) :
    labelOf P defaults md ["sigma"] ≠ labelOf P defaults md' ["sigma"] ↔ roundDigits 3 q ≠ roundDigits 3 q' := by
  have hl : labelExpressions.lookup "sigma" = some "$\\sigma = ".toList := by decide +kernel
  have hc : ∀ (m : String → Option FigVal) (x : ℚ), m "sigma" = some (.num x) → labelOf P defaults m ["sigma"] =
      some ("$\\sigma = ".toList ++ P.str (.num (roundDigits 3 x)) ++ "$".toList) := by
    intro m x hm
    have hf : (["sigma"].filter fun k => decide (k ≠ "")) = ["sigma"] := by decide +kernel
    simp only [labelOf, hf, List.mapM_cons, List.mapM_nil, hm, latexIt, raw_number hP, hl, parseShown]
    simp [List.intercalate, List.intersperse]
  rw [hc md q h, hc md' q' h']
  simp only [ne_eq, Option.some.injEq, List.append_cancel_right_eq, List.append_cancel_left_eq]
  exact not_congr ⟨fun e => hP.inj _ _ e, fun e => by rw [e]⟩

/-! #### Features (C194) -/

/-- A setting that `unstringify` leaves alone, so that it can be a key of the metadata. -/
def Spec.ByKey (P : PyText) (setting : String) : Prop := setting ≠ "" ∧ P.eval setting.toList = .kept

/-- **C194**: features by a key of the metadata: what the record has, through the table of the key. -/
theorem featureOf_key {P : PyText} (f : FeatureName) (k : String) (hk : Spec.ByKey P k) (md : String → Option FigVal) (h : md k ≠ none) :
    featureOf P f k md = (featureByKey P f md k).map some := by
  simp only [featureOf, hk.2, featureByText, hk.1, if_false, h]

/-- **C194**: markers and hatches by a key that has no table raise; so do line styles by any key. -/
theorem C194_table_iff {P : PyText} (f : FeatureName) (table : List (String × Txt × List (Txt × Txt)))
    (hf : (f, table) ∈ [(FeatureName.marker, plotMarkers), (FeatureName.hatch, plotHatches), (FeatureName.lineStyle, plotLineStyles)])
    (k : String) (hk : Spec.ByKey P k) (md : String → Option FigVal) (h : md k ≠ none)
    (hs : k = "sigma" → ∀ v, md k = some v → regimeOf v ≠ none) :
    featureOf P f k md ≠ none ↔ k ∈ table.map Prod.fst := by
  rw [featureOf_key f k hk md h]
  obtain ⟨v, hv⟩ := Option.ne_none_iff_exists'.1 h
  obtain ⟨w, hw⟩ : ∃ w : Bool → FigVal, ∀ b, getShown P md k .null b = some (w b) := by
    by_cases hks : k = "sigma"
    · obtain ⟨r, hr⟩ := Option.ne_none_iff_exists'.1 (hs hks v hv)
      exact ⟨_, fun b => by simp only [getShown, hks ▸ hv, hks, if_true, Option.getD_some, hr, Option.map_some]; rfl⟩
    · exact ⟨_, fun b => by simp only [getShown, hv, hks, if_false, Option.getD_some, Option.map_some]; rfl⟩
  have hl : ∀ t : List (String × Txt × List (Txt × Txt)), t.lookup k ≠ none ↔ k ∈ t.map Prod.fst := by
    intro t
    induction t with
    | nil => simp
    | cons a t ih =>
      obtain ⟨a, b⟩ := a
      rw [List.lookup_cons]
      by_cases ha : k = a
      · subst ha; simp
      · have : (k == a) = false := by simpa using ha
        rw [this, List.map_cons, List.mem_cons]
        simp only [ha, false_or]
        exact ih
  simp only [List.mem_cons, Prod.mk.injEq, List.not_mem_nil, or_false] at hf
  rw [Ne, Option.map_eq_none_iff, ← hl table]
  rcases hf with ⟨rfl, rfl⟩ | ⟨rfl, rfl⟩ | ⟨rfl, rfl⟩ <;>
    simp only [featureByKey, hw, Option.bind_some, fromTable, Option.map_eq_none_iff, ne_eq]

/-- **C194** fails for line styles: no key of the metadata can be used. -/
theorem C194_line_style_false {P : PyText} (k : String) (hk : Spec.ByKey P k) (md : String → Option FigVal) (h : md k ≠ none)
    (hs : k = "sigma" → ∀ v, md k = some v → regimeOf v ≠ none) : featureOf P .lineStyle k md = none := by
  by_contra hne
  exact absurd ((C194_table_iff .lineStyle plotLineStyles (by simp) k hk md h hs).1 hne) (by simp [plotLineStyles])

/-- The markers and the hatches of the noise regimes (`docs/README.md:350`). -/
def Spec.regimeMarker (w : Txt) : Txt := if w = "low".toList then "v".toList else if w = "high".toList then "^".toList else ">".toList
def Spec.regimeHatch (w : Txt) : Txt := if w = "low".toList then "OOO".toList else if w = "high".toList then "+++".toList else "***".toList

theorem regime_tables : ∀ w ∈ ["learned".toList, "low".toList, "high".toList],
    ((plotMarkers.lookup "sigma").map fun rows => (rows.2.lookup w).getD rows.1) = some (Spec.regimeMarker w) ∧
    ((plotHatches.lookup "sigma").map fun rows => (rows.2.lookup w).getD rows.1) = some (Spec.regimeHatch w) := by decide +kernel

theorem shown_regime {P : PyText} (hP : Spec.GoodText P) (md : String → Option FigVal) (q : ℚ) (h : md "sigma" = some (.num q)) :
    getShown P md "sigma" .null false = some (.str (noiseRegime (.num q))) := by
  simp only [getShown, h, if_true, Option.getD_some, regimeOf, Option.map_some, Bool.false_eq_true, if_false, evaluated,
    (hP.words _ (regime_words q)).2]

/-- **C194**: markers and hatches by `sigma` show the noise regime of the record. -/
theorem C194_regime {P : PyText} (hP : Spec.GoodText P) (hk : Spec.ByKey P "sigma") (md : String → Option FigVal) (q : ℚ)
    (h : md "sigma" = some (.num q)) :
    featureOf P .marker "sigma" md = some (some (.str (Spec.regimeMarker (noiseRegime (.num q))))) ∧
    featureOf P .hatch "sigma" md = some (some (.str (Spec.regimeHatch (noiseRegime (.num q))))) := by
  have hw := regime_words q
  have hne : noiseRegime (.num q) ≠ [] := by
    intro e
    rw [e] at hw
    simp at hw
  obtain ⟨h1, h2⟩ := regime_tables _ hw
  rw [featureOf_key _ _ hk md (by simp [h]), featureOf_key _ _ hk md (by simp [h])]
  constructor
  · simp only [featureByKey, reduceCtorEq, decide_false, shown_regime hP md q h, Option.bind_some, fromTable, parseShown, if_neg hne, (hP.words _ hw).1, Option.getD_none, hP.text]
    cases hl : plotMarkers.lookup "sigma" with
    | none => simp [hl] at h1
    | some rows => rw [hl] at h1; simpa using h1
  · simp only [featureByKey, reduceCtorEq, decide_false, shown_regime hP md q h, Option.bind_some, fromTable, parseShown, if_neg hne, (hP.words _ hw).1, Option.getD_none, hP.text]
    cases hl : plotHatches.lookup "sigma" with
    | none => simp [hl] at h2
    | some rows => rw [hl] at h2; simpa using h2

/-- **C194**: two records get one marker just when their noise regimes are the same. -/
theorem C194_regime_iff {P : PyText} (hP : Spec.GoodText P) (hk : Spec.ByKey P "sigma") (md md' : String → Option FigVal) (q q' : ℚ)
    (h : md "sigma" = some (.num q)) (h' : md' "sigma" = some (.num q')) :
    featureOf P .marker "sigma" md = featureOf P .marker "sigma" md' ↔ noiseRegime (.num q) = noiseRegime (.num q') := by
  rw [(C194_regime hP hk md q h).1, (C194_regime hP hk md' q' h').1]
  have key : ∀ w ∈ ["learned".toList, "low".toList, "high".toList], ∀ w' ∈ ["learned".toList, "low".toList, "high".toList],
      Spec.regimeMarker w = Spec.regimeMarker w' → w = w' := by decide +kernel
  constructor
  · intro e
    exact key _ (regime_words q) _ (regime_words q') (by simpa using e)
  · intro e
    rw [e]

/-- **C194**: colours by the title: the listed colour, or the title itself as the colour. -/
theorem C194_title {P : PyText} (hk : Spec.ByKey P "title") (md : String → Option FigVal) (s : Txt)
    (h : md "title" = some (.str s)) (he : P.eval s = .kept) :
    featureOf P .colour "title" md = some (some (.str ((((plotColours.lookup "title").getD []).lookup s).getD s))) := by
  rw [featureOf_key _ _ hk md (by simp [h])]
  simp [featureByKey, getShown, h, evaluated, he]

/-- The titles of the constraint sets that the settings shipped with the code use. -/
def Spec.constraintTitles : List Txt := ["_unconstrained".toList, "_total_constrained".toList, "_row_constrained".toList,
  "_doubly_constrained".toList, "_doubly_10%_cell_constrained".toList, "_doubly_20%_cell_constrained".toList]

/-- **C194**: the titles of the constraint sets have colours of their own. -/
theorem C194_titles_apart : ∀ s ∈ Spec.constraintTitles, ∀ s' ∈ Spec.constraintTitles,
    ((plotColours.lookup "title").getD []).lookup s = ((plotColours.lookup "title").getD []).lookup s' → s = s' := by decide +kernel

/-- **C194** fails: constraining the total of the intensity as well as the rows does not change the colour. -/
theorem C194_title_false : ((plotColours.lookup "title").getD []).lookup "_row_constrained".toList =
    ((plotColours.lookup "title").getD []).lookup "_total_intensity_row_table_constrained".toList ∧
    ((plotColours.lookup "title").getD []).lookup "_row_constrained".toList ≠ none := by decide +kernel

/-- **C194** fails for a key that `eval` takes for something else, as it does `type`: every record gets one text, whatever
its metadata, and sizes raise. -/
theorem C194_object_false {P : PyText} (f : FeatureName) (k : String) (t : Txt) (hk : P.eval k.toList = .object t)
    (md : String → Option FigVal) :
    featureOf P f k md = if f = .number then none else some (some (.str t)) := by
  simp only [featureOf, hk]

/-- **C194**: a text that is not in the metadata is the feature itself. -/
theorem C194_literal {P : PyText} (f : FeatureName) (k : String) (hk : Spec.ByKey P k) (md : String → Option FigVal) (h : md k = none)
    (hf : f ≠ .number) : featureOf P f k md = some (some (.str k.toList)) := by
  simp only [featureOf, hk.2, featureByText, hk.1, if_false, h, if_true, hf]

/-- **C194**: sizes, widths and opacities by a key with numbers: the number of the record. -/
theorem C194_sizes {P : PyText} (k : String) (hk : Spec.ByKey P k) (hs : k ≠ "sigma") (md : String → Option FigVal) (q : ℚ)
    (h : md k = some (.num q)) : featureOf P .number k md = some (some (.num q)) := by
  rw [featureOf_key _ _ hk md (by simp [h])]
  simp [featureByKey, getShown, h, hs]

/-- **C194**: sizes, widths and opacities by a key with texts: what `unstringify` makes of the text. -/
theorem C194_sizes_text {P : PyText} (k : String) (hk : Spec.ByKey P k) (hs : k ≠ "sigma") (md : String → Option FigVal) (s : Txt)
    (h : md k = some (.str s)) : featureOf P .number k md =
      some (some (match P.eval s with | .kept => .str s | .data v => v | .object t => .str t)) := by
  rw [featureOf_key _ _ hk md (by simp [h])]
  simp only [featureByKey, getShown, h, hs, if_false, Option.getD_some, Option.map_some, evaluated, reduceCtorEq, decide_false, Bool.false_eq_true,
    Option.bind_some]

/-- **C194**: an annotation by a key with texts is the expression listed for the text, empty if none is listed: such texts are
not annotated at all. -/
theorem C194_annotate {P : PyText} (hP : Spec.GoodText P) (k : String) (hk : Spec.ByKey P k) (hs : k ≠ "sigma")
    (md : String → Option FigVal) (s : Txt) (h : md k = some (.str s)) :
    featureOf P .annotate k md = some (some (.str (Spec.expressionOf s))) := by
  rw [featureOf_key _ _ hk md (by simp [h])]
  simp only [featureByKey, decide_true, shown_text hP md k hs s h, Option.bind_some, Option.map_some]

/-- **C194**: the empty setting asks for nothing, whatever the metadata. -/
theorem C194_nothing {P : PyText} (f : FeatureName) (hk : P.eval [] = .kept) (md : String → Option FigVal) :
    featureOf P f "" md = some none := by
  have h : P.eval "".toList = .kept := hk
  simp only [featureOf, h, featureByText, if_true]

/-! #### The hypotheses can be met -/

/-- Numbers written as the digits of a code, `type` a Python class, everything else kept. -/
def examplePyText : PyText where
  str v := match v with
    | .null => "None".toList
    | .num q => Nat.toDigits 10 (Encodable.encode q)
    | .str s => s
    | .list _ => "[]".toList
  eval s := if s = "type".toList then .object "<class 'type'>".toList else .kept
  number _ := none
  float _ := none

theorem examplePyText_good : Spec.GoodText examplePyText where
  text _ := rfl
  head q := by
    change ∃ c r, Nat.toDigits 10 (Encodable.encode q) = c :: r ∧ _
    cases h : Nat.toDigits 10 (Encodable.encode q) with
    | nil =>
      exact absurd h (Nat.toDigits_ne_nil)
    | cons c r => exact ⟨c, r, rfl, Or.inl (Nat.isDigit_of_mem_toDigits (b := 10) (by norm_num) (by norm_num) (by rw [h]; simp))⟩
  inj p q h := Encodable.encode_injective (digits_inj h)
  comma q := ⟨notMem_digits (by decide) _, notMem_digits (by decide) _⟩
  words w hw := by
    refine ⟨rfl, ?_⟩
    simp only [List.mem_cons, List.not_mem_nil, or_false] at hw
    rcases hw with rfl | rfl | rfl <;> rfl

/-- Two metadata with several variables, told apart by the group. -/
example : coordinateGroup examplePyText false (fun k => some (.num (if k = "alpha" then 1 else 2))) ["alpha", "beta"] ≠
    coordinateGroup examplePyText false (fun k => some (.num (if k = "alpha" then 1 else 3))) ["alpha", "beta"] :=
  (C193_group_iff examplePyText_good false _ (by simp) _ _).2 ⟨"beta", by simp, by simp [show ("beta" : String) ≠ "alpha" by decide]⟩

example : Spec.ByKey examplePyText "sigma" ∧ Spec.ByKey examplePyText "title" := by
  constructor <;> exact ⟨by decide, rfl⟩

example : featureOf examplePyText .marker "sigma" (fun _ => some (.num (1 / 100))) = some (some (.str "v".toList)) := by
  rw [(C194_regime examplePyText_good ⟨by decide, rfl⟩ _ (1 / 100) rfl).1]
  norm_num [noiseRegime, Spec.regimeMarker]

example : featureOf examplePyText .colour "type" (fun _ => some (.str "SIM_NN".toList)) = some (some (.str "<class 'type'>".toList)) :=
  C194_object_false .colour "type" _ rfl _

example : labelOf examplePyText (fun _ => .null) (fun k => some (if k = "sigma" then .num 1 else .str "SIM_NN".toList)) ["sigma", "type", ""] ≠ none :=
  (C193_label_iff _ _ _).2 (by
    intro k hk _
    simp only [List.mem_cons, List.not_mem_nil, or_false] at hk
    rcases hk with rfl | rfl | rfl
    · exact ⟨_, rfl, Or.inr (Or.inl rfl)⟩
    · exact ⟨_, rfl, Or.inr (Or.inr ⟨_, rfl⟩)⟩
    · exact ⟨_, rfl, Or.inr (Or.inr ⟨_, rfl⟩)⟩)

example : featureOf examplePyText .colour "" (fun _ => some (.num 1)) = some none := C194_nothing _ rfl _

example : featureOf examplePyText .number "title" (fun _ => some (.str "abc".toList)) = some (some (.str "abc".toList)) :=
  C194_sizes_text (P := examplePyText) "title" ⟨by decide, rfl⟩ (by decide) (fun _ => some (.str "abc".toList)) "abc".toList rfl

example : featureOf examplePyText .annotate "title" (fun _ => some (.str "total_table_distance_loss".toList)) ≠ some (some (.str [])) := by
  rw [C194_annotate examplePyText_good "title" ⟨by decide, rfl⟩ (by decide) _ _ rfl]
  have h : Spec.expressionOf "total_table_distance_loss".toList ≠ [] := by decide +kernel
  simpa using h

end GeNSIT
