import Verif.Utils.Props

/-!
# More about range strings (C42) and vectors as dictionaries (C44)
-/

set_option linter.unusedSimpArgs false
set_option linter.unusedVariables false

namespace GeNSIT

open Spec

theorem mapM_none_of_mem {α β : Type} (g : α → Option β) : ∀ (l : List α) (a : α), a ∈ l → g a = none → l.mapM g = none
  | [], _, h, _ => by simp at h
  | x :: xs, a, h, hg => by
    rcases List.mem_cons.1 h with rfl | h
    · simp [List.mapM_cons, hg]
    · rw [List.mapM_cons, mapM_none_of_mem g xs a h hg]
      cases g x <;> rfl

/-- **C42.**  A colon string with a missing end, start or middle component is not a range: the call raises (it is not
silently completed by a default). -/
theorem C42_missing_component (a b : Int) (inclusive : Bool) :
    parseEntry (showInt a ++ [':']) inclusive = .crash ∧ parseEntry (':' :: showInt b) inclusive = .crash ∧
    parseEntry (showInt a ++ ':' :: ':' :: showInt b) inclusive = .crash := by
  have hn : ∀ z : Int, ':' ∉ showInt z := fun z => showInt_not z ':' (by decide) (by decide)
  have he : stringToNumeric [] = none := rfl
  refine ⟨?_, ?_, ?_⟩
  · unfold parseEntry
    rw [if_pos (by simp), pySplit_append ':' _ _ (hn a),
      mapM_none_of_mem stringToNumeric _ [] (by simp [pySplit]) he]
  · unfold parseEntry
    have : ':' :: showInt b = [] ++ ':' :: showInt b := rfl
    rw [if_pos (by simp), this, pySplit_append ':' _ _ (by simp),
      mapM_none_of_mem stringToNumeric _ [] (by simp) he]
  · unfold parseEntry
    have : ':' :: showInt b = [] ++ ':' :: showInt b := rfl
    rw [if_pos (by simp), pySplit_append ':' _ _ (hn a), this, pySplit_append ':' _ _ (by simp),
      mapM_none_of_mem stringToNumeric _ [] (by simp) he]

/-- **C42.**  A colon string one of whose components is not a number raises. -/
theorem C42_not_a_number (pieces : List (List Char)) (inclusive : Bool) (h2 : 2 ≤ pieces.length)
    (hc : ∀ p ∈ pieces, ':' ∉ p) (p : List Char) (hp : p ∈ pieces)
    (hnum : pyInt p = none) :
    parseEntry (pyJoin ':' pieces) inclusive = .crash := by
  have hne : pieces ≠ [] := by rintro rfl; simp at h2
  have hm : ':' ∈ pyJoin ':' pieces := by
    match pieces, h2 with
    | a :: b :: rest, _ => simp [pyJoin]
  unfold parseEntry
  rw [if_pos hm, pySplit_join ':' _ hne hc, mapM_none_of_mem stringToNumeric _ p hp (by unfold stringToNumeric; rw [hnum])]

example : parseEntry "1:x".toList true = .crash ∧ parseEntry "1:".toList true = .crash := by decide +kernel

/-- **C42.**  A negative number of repetitions raises. -/
theorem C42_negative_repeat (x r : Int) (hx : -2 ^ 24 ≤ x) (hx' : x ≤ 2 ^ 24) (hr : r < 0) (hr' : -2 ^ 24 ≤ r) (inclusive : Bool) :
    parseEntry ("repeat(".toList ++ (showInt x ++ ',' :: (showInt r ++ [')']))) inclusive = .crash := by
  have hc : ∀ c : Char, c ≠ '-' → c.isDigit = false → ∀ z : Int, c ∉ showInt z := fun c h1 h2 z => showInt_not z c h1 h2
  have h0 : ("repeat(".toList ++ (showInt x ++ ',' :: (showInt r ++ [')']))) =
      "repeat".toList ++ '(' :: (showInt x ++ ',' :: (showInt r ++ [')'])) := rfl
  rw [h0]
  unfold parseEntry
  have hcol : ':' ∉ "repeat".toList ++ '(' :: (showInt x ++ ',' :: (showInt r ++ [')'])) := by
    simp only [List.mem_append, List.mem_cons, List.mem_nil_iff, not_or, or_false]
    exact ⟨by decide, by decide, hc _ (by decide) (by decide) _, by decide, hc _ (by decide) (by decide) _, by decide⟩
  rw [if_neg hcol, if_pos (by rfl), pySplit_append '(' _ _ (by decide),
    pySplit_noSep '(' (showInt x ++ ',' :: (showInt r ++ [')'])) (by
      simp only [List.mem_append, List.mem_cons, List.mem_nil_iff, not_or, or_false]
      exact ⟨hc _ (by decide) (by decide) _, by decide, hc _ (by decide) (by decide) _, by decide⟩)]
  have h1 : ([['r', 'e', 'p', 'e', 'a', 't'], showInt x ++ ',' :: (showInt r ++ [')'])] : List (List Char)).getLastD [] =
      (showInt x ++ ',' :: showInt r) ++ ')' :: [] := by simp
  have h2 : "repeat".toList = ['r', 'e', 'p', 'e', 'a', 't'] := rfl
  rw [h2, h1, pySplit_append ')' _ _ (by
      simp only [List.mem_append, List.mem_cons, not_or]
      exact ⟨hc _ (by decide) (by decide) _, by decide, hc _ (by decide) (by decide) _⟩)]
  simp only [List.headD_cons]
  rw [pySplit_append ',' _ _ (hc _ (by decide) (by decide) _), pySplit_noSep ',' _ (hc _ (by decide) (by decide) _)]
  simp only [stringToNumeric_showInt x hx hx', stringToNumeric_showInt r (by omega) (by omega)]
  rw [if_pos hr]

example : parseEntry "repeat(7,-3)".toList true = .crash := by decide +kernel

/-- **C42.**  A text with neither a colon nor the word `repeat` raises, whatever it is - also a plain number. -/
theorem C42_plain_text_crashes (s : List Char) (inclusive : Bool) (h1 : ':' ∉ s) (h2 : hasSub "repeat".toList s = false) :
    parseEntry s inclusive = .crash := by
  unfold parseEntry
  rw [if_neg h1, if_neg (by rw [h2]; decide)]

example : parseEntry "5".toList true = .crash := by decide +kernel

/-- **C42.**  A list is refused as a whole: if the expansion of one entry raises, so does that of the list; if none raises
but one is rejected, the list is rejected. -/
theorem C42_list_failures (inclusive : Bool) (es : List RawEntry) :
    ((∃ e ∈ es, parseRaw inclusive e = .crash) → parseList inclusive es = .crash) ∧
    ((∀ e ∈ es, parseRaw inclusive e ≠ .crash) → (∃ e ∈ es, parseRaw inclusive e = .rejected) →
      parseList inclusive es = .rejected) := by
  induction es with
  | nil => simp
  | cons e es ih =>
    constructor
    · rintro ⟨e', he', hcr⟩
      rcases List.mem_cons.1 he' with rfl | he'
      · simp [parseList, hcr]
      · have := ih.1 ⟨e', he', hcr⟩
        cases h : parseRaw inclusive e <;> simp [parseList, h, this]
    · intro hn ⟨e', he', hrj⟩
      have hnt : ∀ e ∈ es, parseRaw inclusive e ≠ .crash := fun a ha => hn a (List.mem_cons_of_mem _ ha)
      have hnc : parseList inclusive es ≠ .crash := by
        intro hc
        clear ih he' hrj hn e' e
        induction es with
        | nil => simp [parseList] at hc
        | cons x xs ih =>
          have hx := hnt x (by simp)
          have ih' := ih (fun a ha => hnt a (List.mem_cons_of_mem _ ha))
          unfold parseList at hc
          cases h : parseRaw inclusive x with
          | crash => exact hx h
          | rejected => cases h2 : parseList inclusive xs <;> simp [h, h2] at hc ih'
          | values v => cases h2 : parseList inclusive xs <;> simp [h, h2] at hc ih'
      rcases List.mem_cons.1 he' with rfl | he'
      · cases h2 : parseList inclusive es <;> simp [parseList, hrj, h2] at hnc ⊢
      · have := ih.2 hnt ⟨e', he', hrj⟩
        have hx := hn e (by simp)
        cases h : parseRaw inclusive e <;> simp [parseList, h, this] at hx ⊢

example : parseList true [.number 1, .text "1:2:3:4".toList, .number 2] = .rejected := by decide +kernel

/-! ## C44: vectors -/

theorem vectorToF_eq (v : List Int) : vectorToF v 0 = arrayToF [v] := by
  simp [vectorToF, arrayToF]

theorem zipIdx_column (v : List Int) : ∀ k, ((v.map fun x => [x]).zipIdx k).map (fun r => r.1.zipIdx.map fun x => ((r.2, x.2), x.1)) =
    (v.zipIdx k).map fun x => [((x.2, 0), x.1)] := by
  induction v with
  | nil => intro k; rfl
  | cons a v ih => intro k; simp only [List.map_cons, List.zipIdx_cons, List.zipIdx_nil, ih]; rfl

theorem vectorToF_col (v : List Int) (axis : Nat) (h : axis ≠ 0) : vectorToF v axis = arrayToF (v.map fun x => [x]) := by
  unfold vectorToF arrayToF
  rw [zipIdx_column]
  induction v.zipIdx with
  | nil => rfl
  | cons a l ih => rw [List.map_cons, List.map_cons, List.flatten_cons, ih, if_neg h]; rfl

/-- **C44.**  A vector written as a dictionary along axis 0 reads back as the table with that single row, along any other
axis as the table with that single column. -/
theorem C44_vector (v : List Int) (hv : v ≠ []) (hfit : ∀ x ∈ v, Fits32 x) (axis : Nat) :
    (axis = 0 → dictToArray (vectorToF v axis) none = some [v]) ∧
    (axis ≠ 0 → dictToArray (vectorToF v axis) none = some (v.map fun x => [x])) := by
  have hl : 0 < v.length := List.length_pos_iff.2 hv
  constructor
  · rintro rfl
    rw [vectorToF_eq]
    exact (C44_dict_roundtrip [v] 1 v.length one_pos hl ⟨rfl, by simp⟩ (by simpa using hfit)).2
  · intro ha
    rw [vectorToF_col v axis ha]
    refine (C44_dict_roundtrip _ v.length 1 hl one_pos ⟨by simp, ?_⟩ ?_).2
    · intro r hr; obtain ⟨x, _, rfl⟩ := List.mem_map.1 hr; rfl
    · intro r hr x hx
      obtain ⟨y, hy, rfl⟩ := List.mem_map.1 hr
      rw [List.mem_singleton.1 hx]; exact hfit y hy

example : dictToArray (vectorToF [4, 0, 7] 1) none = some [[4], [0], [7]] := by decide +kernel

end GeNSIT
