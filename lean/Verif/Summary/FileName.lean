import Verif.Summary.Folders

/-!
# The file of the summary (`gensit/outputs.py`, `OutputSummary.write_metadata_summaries`) (C127)
-/

set_option linter.unusedSimpArgs false
set_option linter.unusedVariables false

namespace GeNSIT

/-- The settings the name is made of. `slices` is the text of the index slices. -/
structure SummaryName where
  out : Txt
  dataset : Txt
  group : Txt
  directories : List Txt
  types : List Txt
  titles : List Txt
  dates : List Txt
  slices : Txt
  ending : Txt

/-- `'_'.join([s for s in str_list if s])`. -/
def joinParts (parts : List Txt) : Txt := List.intercalate "_".toList (parts.filter fun s => !s.isEmpty)

/-- The last part (`gensit/outputs.py:2590`, `2605`). -/
def SummaryName.lastPart (c : SummaryName) : Txt := (if c.ending.length > 0 then c.ending else "summaries".toList) ++ ".csv".toList

/-- The part for the dates (`gensit/outputs.py:2598-2603`): the length that is compared is that of the joined text. -/
def SummaryName.datePart (c : SummaryName) : Txt :=
  if (List.intercalate "__".toList c.dates).length > 4 then "multiple_dates".toList
  else List.intercalate "__".toList c.dates

/-- The file (`gensit/outputs.py:2575-2611`); `dataset` is the result of `find_dataset_directory`. -/
def SummaryName.file (c : SummaryName) : Txt :=
  let dir := osJoin (osJoin (osJoin c.out c.dataset) (if c.directories.length = 1 then c.directories.headD [] else [])) "summaries".toList
  if c.directories.length > 0 then osJoin dir (joinParts [c.slices, c.lastPart])
  else
    osJoin dir (joinParts [List.intercalate "_".toList c.types, if c.titles.length > 0 then List.intercalate "_".toList c.titles else [],
      c.datePart, c.slices, c.lastPart])

/-- Writing a summary (`write_csv`, `gensit/outputs.py:2613`): an existing file is replaced. -/
def SummaryName.write {α : Type} (c : SummaryName) (content : α) (files : Txt → Option α) : Txt → Option α :=
  fun p => if p = c.file then some content else files p

/-! ## C127 -/

/-- C127: the summary just written is in its file and no other file changes. -/
theorem C127_written {α : Type} (c : SummaryName) (content : α) (files : Txt → Option α) :
    c.write content files c.file = some content ∧ ∀ p, p ≠ c.file → c.write content files p = files p := by
  unfold SummaryName.write
  exact ⟨by simp, fun p hp => by simp [hp]⟩

theorem joinParts_last (parts : List Txt) (last : Txt) (h : last ≠ []) : ∃ pre, ∀ last', last' ≠ [] →
    joinParts (parts ++ [last']) = pre ++ last' := by
  unfold joinParts
  by_cases hp : parts.filter (fun s => !s.isEmpty) = []
  · refine ⟨[], fun last' h' => ?_⟩
    rw [List.filter_append, hp]
    have : (!last'.isEmpty) = true := by simpa using h'
    simp [this, List.intercalate, List.intersperse]
  · refine ⟨List.intercalate "_".toList (parts.filter fun s => !s.isEmpty) ++ "_".toList, fun last' h' => ?_⟩
    have : (!last'.isEmpty) = true := by simpa using h'
    rw [List.filter_append]
    have e : [last'].filter (fun s => !s.isEmpty) = [last'] := by simp [this]
    rw [e]
    generalize parts.filter (fun s => !s.isEmpty) = l at hp
    clear e this
    induction l with
    | nil => exact absurd rfl hp
    | cons a r ih =>
      cases r with
      | nil => simp [List.intercalate, List.intersperse]
      | cons b r =>
        have := ih (by simp)
        simp only [List.intercalate, List.cons_append, List.intersperse, List.flatten_cons] at this ⊢
        rw [this]
        simp

theorem osJoin_inj {a b b' : Txt} (hb : b.head? ≠ some '/') (hb' : b'.head? ≠ some '/') (h : osJoin a b = osJoin a b') : b = b' := by
  unfold osJoin at h
  rw [if_neg hb, if_neg hb'] at h
  split at h
  · exact List.append_cancel_left h
  · have := List.append_cancel_left h
    simpa using this

/-- C127: summaries made with the same settings but different (non-empty) endings go to different files, unless a part of the name starts
with a separator. -/
theorem C127_ending (c : SummaryName) (e : Txt) (h1 : c.ending ≠ []) (h2 : e ≠ []) (hne : c.ending ≠ e)
    (hs : ∀ e', e' = c.ending ∨ e' = e → ∀ parts, (joinParts (parts ++ [e' ++ ".csv".toList])).head? ≠ some '/') :
    c.file ≠ ({ c with ending := e } : SummaryName).file := by
  intro hc
  unfold SummaryName.file SummaryName.lastPart SummaryName.datePart at hc
  simp only [if_pos (List.length_pos_of_ne_nil h1), if_pos (List.length_pos_of_ne_nil h2)] at hc
  have main : ∀ parts : List Txt, joinParts (parts ++ [c.ending ++ ".csv".toList]) = joinParts (parts ++ [e ++ ".csv".toList]) → False := by
    intro parts hj
    obtain ⟨pre, hp⟩ := joinParts_last parts (c.ending ++ ".csv".toList) (by simp)
    rw [hp _ (by simp), hp _ (by simp)] at hj
    exact hne (List.append_cancel_right (List.append_cancel_left hj))
  split at hc
  · exact main [c.slices] (osJoin_inj (hs _ (Or.inl rfl) [c.slices]) (hs _ (Or.inr rfl) [c.slices]) hc)
  · exact main [_, _, _, c.slices] (osJoin_inj (hs _ (Or.inl rfl) [_, _, _, c.slices]) (hs _ (Or.inr rfl) [_, _, _, c.slices]) hc)

def exSummary : SummaryName := ⟨"o".toList, "d".toList, [], [], ["SIM".toList], [[]], ["z_4_24".toList], [], "x".toList⟩

example : exSummary.file = "o/d/summaries/SIM_multiple_dates_x.csv".toList := by decide +kernel

/-- C127: any two requests that differ in their dates only (each more than four characters) write to the same file. -/
theorem C127_dates_collide (c : SummaryName) (dates : List Txt) (h1 : (List.intercalate "__".toList c.dates).length > 4)
    (h2 : (List.intercalate "__".toList dates).length > 4) : c.file = ({ c with dates := dates } : SummaryName).file := by
  unfold SummaryName.file SummaryName.datePart SummaryName.lastPart
  simp only [if_pos h1, if_pos h2]

/-- C127: so do requests for several directories, whichever they are, and requests that differ in the group only. -/
theorem C127_directories_collide (c : SummaryName) (directories : List Txt) (group : Txt) (h1 : 1 < c.directories.length)
    (h2 : 1 < directories.length) :
    c.file = ({ c with directories := directories, group := group } : SummaryName).file := by
  unfold SummaryName.file SummaryName.lastPart
  simp only [if_neg (show ¬ c.directories.length = 1 by omega), if_neg (show ¬ directories.length = 1 by omega),
    if_pos (show c.directories.length > 0 by omega), if_pos (show directories.length > 0 by omega)]

theorem C127_group_collides (c : SummaryName) (group : Txt) : c.file = ({ c with group := group } : SummaryName).file := rfl

/-- C127: hence a summary is not kept when one for another date is written. -/
theorem C127_kept_false : ¬ ∀ (c : SummaryName) (dates : List Txt) (files : Txt → Option ℕ) (a b : ℕ), c.dates ≠ dates →
    ({ c with dates := dates } : SummaryName).write b (c.write a files) c.file = some a := by
  intro h
  have := h exSummary ["z_5_24".toList] (fun _ => none) 1 2 (by decide +kernel)
  rw [C127_dates_collide exSummary ["z_5_24".toList] (by decide +kernel) (by decide +kernel),
    (C127_written _ _ _).1] at this
  simp at this

end GeNSIT
