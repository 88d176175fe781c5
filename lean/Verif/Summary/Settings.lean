import Verif.Summary.EvaluateProps
import Verif.Plot.Shown

/-!
# Every sweep setting has a row of its own in the summary (`gensit/outputs.py`: `evaluate_expressions`) (C195)
-/

set_option linter.unusedSimpArgs false
set_option linter.unusedVariables false

namespace GeNSIT

/-- The sweep setting as it is shown (`outputs.py:2811-2814`): every value goes through `get_value`, and then through `str` for
the id of the row. `none` = exception. The keys are different, so that each finds its own value. -/
def shownSweep (P : PyText) (sweep : List (String × FigVal)) : Option (List (String × String)) :=
  sweep.mapM fun kv => (getShown P (fun _ => some kv.2) kv.1 .null false).map fun v => (kv.1, String.ofList (P.str v))

/-- A sweep setting with numbers. -/
def Spec.numbers (ks : List String) (n : String → ℚ) : List (String × FigVal) := ks.map fun k => (k, .num (n k))

/-- Two settings with numbers differ, in the noise regime as far as `sigma` is concerned. -/
def Spec.DifferInShown (ks : List String) (n n' : String → ℚ) : Prop :=
  (∃ k ∈ ks, k ≠ "sigma" ∧ n k ≠ n' k) ∨ ("sigma" ∈ ks ∧ noiseRegime (.num (n "sigma")) ≠ noiseRegime (.num (n' "sigma")))

/-- The text of a number under a key. -/
def settingText (P : PyText) (n : String → ℚ) (k : String) : Txt :=
  if k = "sigma" then noiseRegime (.num (n k)) else P.str (.num (n k))

theorem shownSweep_numbers {P : PyText} (hP : Spec.GoodText P) (n : String → ℚ) : ∀ ks : List String,
    shownSweep P (Spec.numbers ks n) = some (ks.map fun k => (k, String.ofList (settingText P n k)))
  | [] => rfl
  | k :: ks => by
    have ih := shownSweep_numbers hP n ks
    unfold shownSweep Spec.numbers at ih ⊢
    rw [List.map_cons, List.mapM_cons, ih]
    by_cases hk : k = "sigma"
    · subst hk
      simp [getShown, regimeOf, evaluated, (hP.words _ (regime_words (n "sigma"))).2, settingText, hP.text]
    · simp [getShown, hk, settingText]

theorem settingText_space {P : PyText} (hP : Spec.GoodText P) (n : String → ℚ) (k : String) : ' ' ∉ settingText P n k := by
  unfold settingText
  split_ifs
  · have h : ∀ w ∈ ["learned".toList, "low".toList, "high".toList], ' ' ∉ w := by decide +kernel
    exact h _ (regime_words _)
  · exact (hP.comma _).2

theorem setting_ids {t t' : String → Txt} (ht : ∀ k, ' ' ∉ t k) (ht' : ∀ k, ' ' ∉ t' k) : ∀ ks : List String,
    List.intercalate " & ".toList (ks.map fun k => k.toList ++ ("_".toList ++ t k)) =
      List.intercalate " & ".toList (ks.map fun k => k.toList ++ ("_".toList ++ t' k)) → ∀ k ∈ ks, t k = t' k
  | [], _ => by simp
  | [k], h => by
    simp [List.intercalate, List.intersperse] at h
    simpa using h
  | k :: k2 :: ks, h => by
    have hc : ∀ (a : Txt) (l : List Txt), l ≠ [] → List.intercalate " & ".toList (a :: l) =
        a ++ ' ' :: ('&' :: ' ' :: List.intercalate " & ".toList l) := by
      intro a l hl
      cases l with
      | nil => exact absurd rfl hl
      | cons b l => simp [List.intercalate, List.intersperse]
    rw [List.map_cons (l := k2 :: ks), List.map_cons (l := k2 :: ks), hc _ _ (by simp), hc _ _ (by simp)] at h
    simp only [List.append_assoc, List.append_cancel_left_eq] at h
    obtain ⟨e, e2⟩ := cut_inj ' ' (ht k) (ht' k) h
    have ih := setting_ids ht ht' (k2 :: ks) (by simpa using e2)
    intro x hx
    rcases List.mem_cons.1 hx with rfl | hx
    · exact e
    · exact ih x hx

/-- **C195**: two sweep settings with numbers have rows with different ids just when they differ, counting for `sigma` only
the noise regime. -/
theorem C195_rows_iff {P : PyText} (hP : Spec.GoodText P) (ks : List String) (n n' : String → ℚ) (s s' : List (String × String))
    (h : shownSweep P (Spec.numbers ks n) = some s) (h' : shownSweep P (Spec.numbers ks n') = some s') :
    Spec.rowId s ≠ Spec.rowId s' ↔ Spec.DifferInShown ks n n' := by
  rw [shownSweep_numbers hP] at h h'
  cases h
  cases h'
  have key : Spec.rowId (ks.map fun k => (k, String.ofList (settingText P n k))) = Spec.rowId (ks.map fun k => (k, String.ofList (settingText P n' k))) ↔
      ∀ k ∈ ks, settingText P n k = settingText P n' k := by
    constructor
    · intro e
      have e2 := congrArg String.toList e
      unfold Spec.rowId at e2
      simp only [String.toList_intercalate, List.map_map, Function.comp_def, String.toList_append, String.toList_ofList, List.append_assoc] at e2
      exact setting_ids (settingText_space hP n) (settingText_space hP n') ks e2
    · intro e
      rw [List.map_congr_left fun k hk => by rw [e k hk]]
  rw [Ne, key]
  unfold Spec.DifferInShown settingText
  constructor
  · intro hne
    push Not at hne
    obtain ⟨k, hk, hd⟩ := hne
    by_cases hs : k = "sigma"
    · subst hs
      exact Or.inr ⟨hk, by simpa using hd⟩
    · rw [if_neg hs, if_neg hs] at hd
      exact Or.inl ⟨k, hk, hs, fun e => hd (by rw [e])⟩
  · rintro (⟨k, hk, hs, hd⟩ | ⟨hk, hd⟩) hall
    · have := hall k hk
      rw [if_neg hs, if_neg hs] at this
      exact hd (hP.inj _ _ this)
    · exact hd (by simpa using hall "sigma" hk)

/-- **C195**: settings that differ pairwise have different ids, as the rows of `C124_table` require. -/
theorem C195_settings {P : PyText} (hP : Spec.GoodText P) (ks : List String) (ns : List (String → ℚ))
    (hd : ns.Pairwise (Spec.DifferInShown ks)) (ss : List (List (String × String)))
    (h : ns.map (fun n => shownSweep P (Spec.numbers ks n)) = ss.map some) : (ss.map Spec.rowId).Nodup := by
  induction ns generalizing ss with
  | nil =>
    have : ss = [] := by simpa using h.symm
    simp [this]
  | cons n ns ih =>
    cases ss with
    | nil => simp at h
    | cons s ss =>
      rw [List.map_cons, List.map_cons, List.cons.injEq] at h
      rw [List.pairwise_cons] at hd
      rw [List.map_cons, List.nodup_cons]
      refine ⟨?_, ih hd.2 ss h.2⟩
      intro hm
      obtain ⟨s', hs', he⟩ := List.mem_map.1 hm
      have : some s' ∈ ns.map fun n => shownSweep P (Spec.numbers ks n) := by
        rw [h.2]
        exact List.mem_map.2 ⟨s', hs', rfl⟩
      obtain ⟨n', hn', hn2⟩ := List.mem_map.1 this
      exact (C195_rows_iff hP ks n n' s s' h.1 hn2).2 (hd.1 n' hn') he.symm

/-- **C195** fails for `sigma`: two settings of one noise regime share one row, which holds the value of the second. -/
theorem C195_sigma_false {P : PyText} (hP : Spec.GoodText P) {D : Type}
    (eval : List (String × EvalResult D) → String → Option (EvalResult D)) (append : D → D → Option D) (expId name expr : String)
    (q q' : ℚ) (hr : noiseRegime (.num q) = noiseRegime (.num q')) (s s' : List (String × String)) (d d' : D)
    (hs : shownSweep P [("sigma", .num q)] = some s) (hs' : shownSweep P [("sigma", .num q')] = some s')
    (he : eval [] expr = some (.swept [(s, d), (s', d')])) :
    ∃ row, evaluateExpressions eval append true expId [(name, expr)] = some [row] ∧ row.lookup name = some (.data d') := by
  have h := shownSweep_numbers hP (fun _ => q) ["sigma"]
  have h' := shownSweep_numbers hP (fun _ => q') ["sigma"]
  rw [show Spec.numbers ["sigma"] (fun _ => q) = [("sigma", FigVal.num q)] from rfl, hs] at h
  rw [show Spec.numbers ["sigma"] (fun _ => q') = [("sigma", FigVal.num q')] from rfl, hs'] at h'
  refine C124_index_ignored eval append true expId name expr s s' d d' he ?_
  have : s = s' := by
    cases h
    cases h'
    simp [settingText, hr]
  rw [this]

/-- The settings `alpha = 1`, `sigma = 1/100` and `alpha = 1`, `sigma = 1` have rows of their own. -/
example : Spec.DifferInShown ["alpha", "sigma"] (fun k => if k = "alpha" then 1 else 1 / 100) (fun k => if k = "alpha" then 1 else 1) :=
  Or.inr ⟨by simp, by
    norm_num [noiseRegime, show ("sigma" : String) ≠ "alpha" by decide]
    decide⟩

/-- `sigma = 1` and `sigma = 2` share a row. -/
example : noiseRegime (.num 1) = noiseRegime (.num 2) := by norm_num [noiseRegime]

end GeNSIT
