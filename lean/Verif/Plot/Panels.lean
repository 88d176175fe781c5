import Verif.Summary.FileName
import Mathlib.Data.Rat.Floor
import Mathlib.Algebra.Order.Ring.Rat
import Mathlib.Data.List.Perm.Basic
import Mathlib.Tactic.NormNum
import Mathlib.Data.List.Nodup
import Mathlib.Data.List.Dedup

/-!
# Panels, legends and lines of a figure (`gensit/plot.py`: `plot_simple`, `plot_wrapper`; `gensit/utils/misc_utils.py`: `flip`)
(C186, C187)

matplotlib itself is taken by contract: a panel has a scale and a label for either axis, changed by the corresponding calls.
-/

set_option linter.unusedSimpArgs false
set_option linter.unusedVariables false

namespace GeNSIT

/-! ### The final loop over the panels -/

/-- Either axis. -/
inductive FigAxis where
  | x
  | y
  deriving DecidableEq

/-- What is asked for: the groups of either axis in the order of their panels (`group_hashmap`, `plot.py:521-533`), and the
scales (`none`: not given). -/
structure PanelOptions where
  groups : FigAxis → List Txt
  scale : FigAxis → Option Txt

/-- The labels and scales of a panel. -/
structure Panel where
  label : FigAxis → Option Txt
  scale : FigAxis → Txt

/-- A panel made by `plt.subplots`. -/
def freshPanel : Panel := ⟨fun _ => none, fun _ => "linear".toList⟩

/-- `set_ylabel` and `set_yscale`. -/
def Panel.setLabel (p : Panel) (a : FigAxis) (t : Txt) : Panel := { p with label := fun b => if b = a then some t else p.label b }
def Panel.setScale (p : Panel) (a : FigAxis) (t : Txt) : Panel := { p with scale := fun b => if b = a then t else p.scale b }

/-- One round of the final loop (`plot.py:853-871`) for panel `(r, c)`. `getattr(ax, f"set_{var}scale",
ax.set_yscale(...))` evaluates its default, which sets the scale of the y-axis, and does not call what it returns. The label
is always set by `set_ylabel` and looked up with the row `r`; an `IndexError` is skipped. Simplification: the limits are the
subject of C144; a scale given as an empty text counts as not given. -/
def panelRound (o : PanelOptions) (r : ℕ) (p : Panel) (v : FigAxis) : Panel :=
  let p1 := match o.scale v with
    | some s => p.setScale .y s
    | none => p
  if o.groups v = [] then p1
  else match (o.groups v)[r]? with
    | some g => p1.setLabel .y g
    | none => p1

/-- The panel in row `r` and column `c` after the loop `for var in ['x','y']` (`plot.py:838-871`). -/
def panelOf (o : PanelOptions) (r c : ℕ) : Panel := [FigAxis.x, FigAxis.y].foldl (panelRound o r) freshPanel

/-- Rows and columns of the figure (`plot.py:614-615`). -/
def PanelOptions.rows (o : PanelOptions) : ℕ := max 1 (o.groups .y).length
def PanelOptions.cols (o : PanelOptions) : ℕ := max 1 (o.groups .x).length

namespace Spec

/-- The group of its row, if there are row groups, and of its column, if there are column groups, is a label of the panel. -/
def Labelled (o : PanelOptions) (r c : ℕ) (p : Panel) : Prop :=
  (∀ g, (o.groups .y)[r]? = some g → ∃ a, p.label a = some g) ∧ (∀ g, (o.groups .x)[c]? = some g → ∃ a, p.label a = some g)

/-- The scales asked for are those of the panel. -/
def Scaled (o : PanelOptions) (p : Panel) : Prop := ∀ a s, o.scale a = some s → p.scale a = s

end Spec

/-- C186: with row groups only, every panel carries the label of its row's group. -/
theorem C186_rows (o : PanelOptions) (hx : o.groups .x = []) (r c : ℕ) (hr : r < o.rows) (hc : c < o.cols) :
    Spec.Labelled o r c (panelOf o r c) := by
  refine ⟨fun g hg => ⟨.y, ?_⟩, fun g hg => by simp [hx] at hg⟩
  have hn : o.groups .y ≠ [] := fun e => by simp [e] at hg
  simp only [panelOf, List.foldl_cons, List.foldl_nil, panelRound, hx, if_true, if_neg hn, hg]
  simp [Panel.setLabel]

example : Spec.Labelled ⟨fun a => if a = .y then ["a".toList, "b".toList] else [], fun _ => none⟩ 1 0
    (panelOf ⟨fun a => if a = .y then ["a".toList, "b".toList] else [], fun _ => none⟩ 1 0) :=
  C186_rows _ rfl 1 0 (by decide) (by decide)

/-- C186, exact behaviour of the labels: the x-axis has none; the y-axis the group of the row, or without row groups the
first column group, whatever the column. -/
theorem C186_labels (o : PanelOptions) (r c : ℕ) (hr : r < o.rows) :
    (panelOf o r c).label .x = none ∧
    (panelOf o r c).label .y = if o.groups .y = [] then (o.groups .x).head? else (o.groups .y)[r]? := by
  have hs : ∀ (p : Panel) (v : FigAxis), (match o.scale v with | some s => p.setScale .y s | none => p).label = p.label := by
    intro p v
    cases o.scale v <;> rfl
  by_cases hy : o.groups .y = []
  · have hr0 : r = 0 := by simp [PanelOptions.rows, hy] at hr; exact hr
    subst hr0
    rw [if_pos hy]
    simp only [panelOf, List.foldl_cons, List.foldl_nil, panelRound, hy, if_true]
    rcases hx : o.groups .x with _ | ⟨g, gs⟩
    · simp only [if_true]
      rw [hs, hs]
      simp [freshPanel]
    · simp only [reduceCtorEq, if_false, List.getElem?_cons_zero]
      rw [hs]
      simp [Panel.setLabel, freshPanel, hs]
  · rw [if_neg hy]
    have hlt : r < (o.groups .y).length := by
      have : 0 < (o.groups .y).length := List.length_pos_iff.2 hy
      simp only [PanelOptions.rows] at hr
      omega
    simp only [panelOf, List.foldl_cons, List.foldl_nil]
    generalize hq : panelRound o r freshPanel .x = q
    have hqx : q.label .x = none := by
      rw [← hq]
      unfold panelRound
      by_cases h : o.groups .x = []
      · simp only [if_pos h]; rw [hs]; rfl
      · simp only [if_neg h]
        cases (o.groups .x)[r]?
        · simp only []; rw [hs]; rfl
        · simp [Panel.setLabel, hs, freshPanel]
    simp only [panelRound, if_neg hy, List.getElem?_eq_getElem hlt]
    refine ⟨?_, by simp [Panel.setLabel]⟩
    simp only [Panel.setLabel, reduceCtorEq, if_false]
    rw [hs]
    exact hqx

/-- C186, exact behaviour of the scales: the x-axis stays linear; the y-axis takes the x-axis's if it is given none. -/
theorem C186_scales (o : PanelOptions) (r c : ℕ) :
    (panelOf o r c).scale .x = "linear".toList ∧
    (panelOf o r c).scale .y = ((o.scale .y).or (o.scale .x)).getD "linear".toList := by
  have hl : ∀ (p : Panel) (v : FigAxis), (panelRound o r p v).scale =
      (match o.scale v with | some s => p.setScale .y s | none => p).scale := by
    intro p v
    unfold panelRound
    by_cases h : o.groups v = []
    · simp [h]
    · simp only [if_neg h]
      cases (o.groups v)[r]? <;> rfl
  simp only [panelOf, List.foldl_cons, List.foldl_nil]
  rw [hl]
  have hx := hl freshPanel .x
  generalize panelRound o r freshPanel .x = q at hx ⊢
  rcases ex : o.scale .x with _ | s <;> rcases ey : o.scale .y with _ | t <;> simp only [ex] at hx <;>
    simp [Panel.setScale, hx, freshPanel]

/-- C186: a scale for the y-axis is applied. -/
theorem C186_y_scale (o : PanelOptions) (h : o.scale .x = none) (r c : ℕ) : Spec.Scaled o (panelOf o r c) := by
  intro a s hs
  cases a
  · rw [h] at hs; simp at hs
  · rw [(C186_scales o r c).2, hs]; rfl

/-- C186: a scale for the x-axis is never applied to it, unless linear is asked for. -/
theorem C186_x_scale (o : PanelOptions) (s : Txt) (h : o.scale .x = some s) (hs : s ≠ "linear".toList) (r c : ℕ) :
    ¬ Spec.Scaled o (panelOf o r c) := fun H => hs (by rw [← H .x s h, (C186_scales o r c).1])

/-- C186, the negation for scales. -/
theorem C186_scale_false : ¬ ∀ (o : PanelOptions) (r c : ℕ), Spec.Scaled o (panelOf o r c) := fun H =>
  C186_x_scale ⟨fun _ => [], fun a => if a = .x then some "log".toList else none⟩ "log".toList rfl (by decide +kernel) 0 0 (H _ 0 0)

/-- C186, the negation for labels: two column groups. -/
theorem C186_label_false : ¬ ∀ (o : PanelOptions) (r c : ℕ), r < o.rows → c < o.cols → Spec.Labelled o r c (panelOf o r c) := by
  intro H
  obtain ⟨a, ha⟩ := (H ⟨fun a => if a = .x then ["a".toList, "b".toList] else [], fun _ => none⟩ 0 1 (by decide) (by decide)).2 "b".toList rfl
  revert ha
  cases a <;> decide +kernel

/-! ### Ticks of continuous axes -/

/-- `np.arange(start, stop, step)`: `⌈(stop - start) / step⌉` numbers. -/
def arangeRat (start stop step : ℚ) : List ℚ := (List.range ⌈(stop - start) / step⌉₊).map fun k : ℕ => start + (k : ℚ) * step

/-- The ticks of an axis (`plot.py:685-701`): the end is that of the x-axis, since `f"get_{var}lim()"` names no attribute. -/
def ticksOf (ends : FigAxis → ℚ) (loc : FigAxis → ℚ × ℚ) (a : FigAxis) : List ℚ := arangeRat (loc a).1 (ends .x) (loc a).2

/-- The ticks asked for: from the start on, in steps, all that lie before the end of the axis. -/
def Spec.TicksAsked (stop start step : ℚ) (l : List ℚ) : Prop :=
  ∀ q, q ∈ l ↔ q < stop ∧ ∃ k : ℕ, q = start + k * step

theorem mem_arangeRat (start stop step q : ℚ) (hs : 0 < step) : q ∈ arangeRat start stop step ↔ q < stop ∧ ∃ k : ℕ, q = start + k * step := by
  simp only [arangeRat, List.mem_map, List.mem_range, Nat.lt_ceil]
  constructor
  · rintro ⟨k, hk, rfl⟩
    rw [lt_div_iff₀ hs] at hk
    exact ⟨by linarith, k, rfl⟩
  · rintro ⟨h, k, rfl⟩
    exact ⟨k, by rw [lt_div_iff₀ hs]; linarith, rfl⟩

/-- C186, exact behaviour of the ticks of either axis: they run to the end of the x-axis. -/
theorem C186_ticks (ends : FigAxis → ℚ) (loc : FigAxis → ℚ × ℚ) (a : FigAxis) (hs : 0 < (loc a).2) :
    Spec.TicksAsked (ends .x) (loc a).1 (loc a).2 (ticksOf ends loc a) := fun q => mem_arangeRat _ _ _ q hs

/-- C186: so the ticks of the x-axis are those asked for. -/
theorem C186_x_ticks (ends : FigAxis → ℚ) (loc : FigAxis → ℚ × ℚ) (hs : 0 < (loc .x).2) :
    Spec.TicksAsked (ends .x) (loc .x).1 (loc .x).2 (ticksOf ends loc .x) := C186_ticks ends loc .x hs

/-- C186, the negation for ticks: an x-axis to 1 and a y-axis to 10. -/
theorem C186_tick_false : ¬ ∀ (ends : FigAxis → ℚ) (loc : FigAxis → ℚ × ℚ) (a : FigAxis), 0 < (loc a).2 →
    Spec.TicksAsked (ends a) (loc a).1 (loc a).2 (ticksOf ends loc a) := by
  intro H
  have h := (H (fun a => if a = .x then 1 else 10) (fun _ => (0, 2)) .y (by norm_num) 2).2
    ⟨by simp; norm_num, 1, by norm_num⟩
  have := ((C186_ticks (fun a => if a = .x then 1 else 10) (fun _ => (0, 2)) .y (by norm_num) 2).1 h).1
  simp at this

/-! ### The legend -/

/-- `items[i::n]` (`misc_utils.py:1517`). -/
def strided {α : Type} (l : List α) (n i : ℕ) : List α := ((l.zipIdx).filter fun e => e.2 % n = i).map Prod.fst

/-- `flip(items, ncol)` (`misc_utils.py:1516-1517`). -/
def flipItems {α : Type} (l : List α) (n : ℕ) : List α := (List.range n).flatMap fun i => strided l n i

/-- `dict(zip(labels, handles))`: one entry per label, with the last handle. -/
def putEntry {H : Type} : List (Txt × H) → Txt × H → List (Txt × H)
  | [], e => [e]
  | (k, h) :: r, e => if k = e.1 then (k, e.2) :: r else (k, h) :: putEntry r e

def entryDict {H : Type} (l : List (Txt × H)) : List (Txt × H) := l.foldl putEntry []

/-- The legend (`plot.py:880-929`). `drawn` are the labels and handles of all panels in the order of the panels, `order` any
rearrangement (`np.lexsort` of the split labels, `plot.py:905-907`), `panels` the panels in order, `asked` the one asked for.
Result: the panel the legend is put in, its handles and its labels; `none` = no legend. `axid` is what the loop over the
panels leaves behind (`plot.py:886`, `924`). Not modelled: labels with different numbers of parts, which `np.array` refuses,
and that lexsort refuses an empty list. -/
def legendOf {H : Type} (panels : List (ℕ × ℕ)) (asked : ℕ × ℕ) (order : List (Txt × H) → List (Txt × H)) (drawn : List (Txt × H)) (ncols : ℕ) :
    Option ((ℕ × ℕ) × List H × List Txt) :=
  if asked ∈ panels then
    (panels.getLast?).map fun axid =>
      (axid, flipItems ((entryDict (order drawn)).map Prod.snd) ncols, flipItems ((entryDict (order drawn)).map Prod.fst) ncols)
  else none

/-- The legend asked for: every label once, beside the handle of something drawn with that label. -/
def Spec.LegendOf {H : Type} (drawn : List (Txt × H)) (handles : List H) (labels : List Txt) : Prop :=
  labels.Nodup ∧ (∀ t, t ∈ labels ↔ ∃ h, (t, h) ∈ drawn) ∧ handles.length = labels.length ∧ ∀ e ∈ labels.zip handles, e ∈ drawn

theorem strided_map {α β : Type} (g : α → β) (l : List α) (n i : ℕ) : strided (l.map g) n i = (strided l n i).map g := by
  simp only [strided, List.zipIdx_map, List.filter_map, List.map_map]
  rfl

theorem flipItems_map {α β : Type} (g : α → β) (l : List α) (n : ℕ) : flipItems (l.map g) n = (flipItems l n).map g := by
  simp only [flipItems, List.map_flatMap, strided_map]

theorem filter_classes_perm {α : Type} (f : α → ℕ) : ∀ (n : ℕ) (l : List α), (∀ a ∈ l, f a < n) →
    ((List.range n).flatMap fun i => l.filter fun a => f a = i).Perm l
  | n, [], _ => by simp
  | n, a :: l, h => by
    have ih := filter_classes_perm f n l (fun b hb => h b (by simp [hb]))
    have ha := h a (by simp)
    have key : ∀ (js : List ℕ), js.Nodup → f a ∈ js →
        (js.flatMap fun i => (a :: l).filter fun b => f b = i).Perm (a :: js.flatMap fun i => l.filter fun b => f b = i) := by
      intro js
      induction js with
      | nil => intro _ hm; simp at hm
      | cons j js ihj =>
        intro hn hm
        simp only [List.flatMap_cons]
        by_cases e : f a = j
        · have hrest : (js.flatMap fun i => (a :: l).filter fun b => f b = i) = js.flatMap fun i => l.filter fun b => f b = i := by
            rw [List.flatMap_def, List.flatMap_def]
            congr 1
            refine List.map_congr_left fun i hi => ?_
            rw [List.filter_cons, if_neg]
            intro hh
            have : f a = i := by simpa using hh
            exact (List.nodup_cons.1 hn).1 (by rw [← e, this]; exact hi)
          rw [hrest, List.filter_cons, if_pos (by simp [e])]
          exact List.Perm.refl _
        · have hm' : f a ∈ js := by
            rcases List.mem_cons.1 hm with h1 | h1
            · exact absurd h1 e
            · exact h1
          rw [List.filter_cons, if_neg (by simp [e])]
          exact ((ihj (List.nodup_cons.1 hn).2 hm').append_left _).trans List.perm_middle
    exact (key _ List.nodup_range (by simpa using ha)).trans (ih.cons a)

/-- C187: arranging by columns keeps every entry, for every number of columns. -/
theorem C187_columns {α : Type} (l : List α) (n : ℕ) (hn : 0 < n) : (flipItems l n).Perm l := by
  have h := filter_classes_perm (fun e : α × ℕ => e.2 % n) n l.zipIdx (fun e _ => Nat.mod_lt _ hn)
  have h2 := h.map Prod.fst
  rw [List.map_flatMap] at h2
  have e : l.zipIdx.map Prod.fst = l := by simp
  rw [e] at h2
  exact h2

theorem mem_putEntry {H : Type} (d : List (Txt × H)) (e x : Txt × H) : x ∈ putEntry d e → x ∈ d ∨ x = e := by
  induction d with
  | nil => intro h; simp [putEntry] at h; exact .inr h
  | cons a d ih =>
    obtain ⟨k, h⟩ := a
    unfold putEntry
    by_cases hk : k = e.1
    · rw [if_pos hk]
      intro hx
      rcases List.mem_cons.1 hx with rfl | hx
      · right; rw [hk]
      · left; simp [hx]
    · rw [if_neg hk]
      intro hx
      rcases List.mem_cons.1 hx with rfl | hx
      · left; simp
      · rcases ih hx with h1 | h1
        · left; simp [h1]
        · right; exact h1

theorem keys_putEntry {H : Type} (d : List (Txt × H)) (e : Txt × H) : (putEntry d e).map Prod.fst =
    if e.1 ∈ d.map Prod.fst then d.map Prod.fst else d.map Prod.fst ++ [e.1] := by
  induction d with
  | nil => simp [putEntry]
  | cons a d ih =>
    obtain ⟨k, h⟩ := a
    unfold putEntry
    by_cases hk : k = e.1
    · rw [if_pos hk]; simp [hk]
    · rw [if_neg hk]
      simp only [List.map_cons, ih, List.mem_cons]
      have hk' : ¬ e.1 = k := fun h => hk h.symm
      by_cases hm : e.1 ∈ d.map Prod.fst
      · rw [if_pos hm, if_pos (.inr hm)]
      · rw [if_neg hm, if_neg (by simp only [hk', false_or]; exact hm)]; rfl

theorem entryDict_spec {H : Type} (l : List (Txt × H)) : ((entryDict l).map Prod.fst).Nodup ∧
    (∀ x ∈ entryDict l, x ∈ l) ∧ ∀ t, t ∈ (entryDict l).map Prod.fst ↔ t ∈ l.map Prod.fst := by
  have gen : ∀ (l d : List (Txt × H)), (d.map Prod.fst).Nodup → (((l.foldl putEntry d).map Prod.fst).Nodup ∧
      (∀ x ∈ l.foldl putEntry d, x ∈ d ∨ x ∈ l) ∧ ∀ t, t ∈ (l.foldl putEntry d).map Prod.fst ↔ t ∈ d.map Prod.fst ∨ t ∈ l.map Prod.fst) := by
    intro l
    induction l with
    | nil => intro d hd; exact ⟨hd, fun x hx => .inl hx, fun t => by simp⟩
    | cons e l ih =>
      intro d hd
      have hn : ((putEntry d e).map Prod.fst).Nodup := by
        rw [keys_putEntry]
        by_cases hm : e.1 ∈ d.map Prod.fst
        · rw [if_pos hm]; exact hd
        · rw [if_neg hm]
          exact List.nodup_append.2 ⟨hd, by simp, fun a ha b hb => by
            rw [List.mem_singleton.1 hb]; exact fun h => hm (h ▸ ha)⟩
      obtain ⟨h1, h2, h3⟩ := ih (putEntry d e) hn
      refine ⟨h1, fun x hx => ?_, fun t => ?_⟩
      · rcases h2 x hx with h | h
        · rcases mem_putEntry d e x h with h | h
          · exact .inl h
          · exact .inr (by simp [h])
        · exact .inr (by simp [h])
      · rw [List.foldl_cons, h3 t, keys_putEntry]
        by_cases hm : e.1 ∈ d.map Prod.fst
        · rw [if_pos hm]
          constructor
          · rintro (h | h)
            · exact .inl h
            · exact .inr (by simp only [List.map_cons, List.mem_cons]; exact .inr h)
          · rintro (h | h)
            · exact .inl h
            · rcases List.mem_cons.1 h with h | h
              · exact .inl (h ▸ hm)
              · exact .inr h
        · rw [if_neg hm]
          simp only [List.mem_append, List.mem_singleton, List.map_cons, List.mem_cons, or_assoc, List.not_mem_nil, false_or]
  obtain ⟨h1, h2, h3⟩ := gen l [] (by simp)
  exact ⟨h1, fun x hx => by simpa using h2 x hx, fun t => (h3 t).trans (by simp)⟩

/-- C187: whatever the order and the number of columns, the legend lists every label exactly once, beside the handle of
something drawn with it. -/
theorem C187_legend {H : Type} (panels : List (ℕ × ℕ)) (asked : ℕ × ℕ) (order : List (Txt × H) → List (Txt × H))
    (ho : ∀ l, (order l).Perm l) (drawn : List (Txt × H)) (ncols : ℕ) (hn : 0 < ncols) (at_ : ℕ × ℕ) (handles : List H) (labels : List Txt)
    (h : legendOf panels asked order drawn ncols = some (at_, handles, labels)) : Spec.LegendOf drawn handles labels := by
  unfold legendOf at h
  by_cases ha : asked ∈ panels
  · rw [if_pos ha, Option.map_eq_some_iff] at h
    obtain ⟨z, _, hz⟩ := h
    simp only [Prod.mk.injEq] at hz
    obtain ⟨_, rfl, rfl⟩ := hz
    obtain ⟨h1, h2, h3⟩ := entryDict_spec (order drawn)
    have hp : (flipItems (entryDict (order drawn)) ncols).Perm (entryDict (order drawn)) := C187_columns _ _ hn
    rw [flipItems_map, flipItems_map]
    refine ⟨((hp.map Prod.fst).nodup_iff).2 h1, fun t => ?_, by simp, fun e he => ?_⟩
    · rw [(hp.map Prod.fst).mem_iff, h3 t, ((ho drawn).map Prod.fst).mem_iff]
      simp
    · rw [List.zip_map'] at he
      have : e ∈ flipItems (entryDict (order drawn)) ncols := by simpa using he
      exact (ho drawn).mem_iff.1 (h2 e (hp.mem_iff.1 this))
  · rw [if_neg ha] at h; simp at h

example : ∃ at_ handles labels, legendOf [(0, 0), (0, 1)] (0, 0) id [("b".toList, 1), ("a".toList, 2), ("b".toList, 3)] 2 =
    some (at_, handles, labels) ∧ labels = ["b".toList, "a".toList] ∧ handles = [3, 2] := ⟨_, _, _, rfl, by decide +kernel, by decide +kernel⟩

/-- C187, exact behaviour: the legend is put in the last panel. -/
theorem C187_last_panel {H : Type} (panels : List (ℕ × ℕ)) (asked : ℕ × ℕ) (order : List (Txt × H) → List (Txt × H)) (drawn : List (Txt × H))
    (ncols : ℕ) : (legendOf panels asked order drawn ncols).map Prod.fst = if asked ∈ panels then panels.getLast? else none := by
  unfold legendOf
  by_cases h : asked ∈ panels
  · rw [if_pos h, if_pos h]
    cases panels.getLast? <;> rfl
  · rw [if_neg h, if_neg h]; rfl

/-- C187: the legend is in the panel asked for exactly when that is the last one. -/
theorem C187_asked_iff {H : Type} (panels : List (ℕ × ℕ)) (asked : ℕ × ℕ) (ha : asked ∈ panels) (order : List (Txt × H) → List (Txt × H))
    (drawn : List (Txt × H)) (ncols : ℕ) : (legendOf panels asked order drawn ncols).map Prod.fst = some asked ↔ panels.getLast? = some asked := by
  rw [C187_last_panel, if_pos ha]

/-- C187, the negation for the place. -/
theorem C187_place_false : ¬ ∀ (panels : List (ℕ × ℕ)) (asked : ℕ × ℕ), asked ∈ panels →
    (legendOf panels asked id [("a".toList, ())] 1).map Prod.fst = some asked := by
  intro H
  have h := H [(0, 0), (0, 1)] (0, 0) (by simp)
  rw [C187_last_panel] at h
  simp at h

/-! ### Lines -/

/-- The keywords handed to `plot_wrapper` (`plot.py:757-772`) that concern lines: `linestyle`, `linewidth`. -/
def lineKeywords (style width : Txt) : String → Option Txt := fun k =>
  if k = "linestyle" then some style else if k = "linewidth" then some width else none

/-- What `ax.plot` gets as line style and width (`plot.py:440-443`): `kwargs.get('line_style')`, `kwargs.get('line_width')`. -/
def plottedLine (kw : String → Option Txt) : Option Txt × Option Txt := (kw "line_style", kw "line_width")

/-- C187, exact behaviour of lines: neither style nor width asked for is ever handed on. -/
theorem C187_lines (style width : Txt) : plottedLine (lineKeywords style width) = (none, none) := by
  simp [plottedLine, lineKeywords]

/-- C187, the negation for lines. -/
theorem C187_line_false : ¬ ∀ style width : Txt, plottedLine (lineKeywords style width) = (some style, some width) := fun H => by
  have := H [] []
  rw [C187_lines] at this
  simp at this

end GeNSIT
