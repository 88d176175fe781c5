import Verif.Plot.Model
import Mathlib.Data.List.Nodup
import Mathlib.Data.List.Perm.Basic
import Mathlib.Data.Rat.Cast.Order
import Mathlib.Tactic.Linarith

/-!
# C143, C144: subplots and axis limits
-/

namespace GeNSIT

theorem mem_firstsOf (l : List String) (a : String) : a ∈ firstsOf l ↔ a ∈ l := by
  induction l with
  | nil => simp [firstsOf]
  | cons b rest ih =>
    simp only [firstsOf, List.mem_cons, List.mem_filter, ih, decide_eq_true_eq]
    by_cases h : a = b <;> simp [h]

theorem firstsOf_nodup (l : List String) : (firstsOf l).Nodup := by
  induction l with
  | nil => simp [firstsOf]
  | cons b rest ih =>
    simp only [firstsOf, List.nodup_cons, List.mem_filter, decide_eq_true_eq, not_and, not_not]
    exact ⟨fun _ => trivial, ih.filter _⟩

/-- The map of locations for groups (no locator, no minor entries). -/
theorem groupMap_lookup (u : List String) (g : String) : ∀ (k : ℕ), g ∈ u →
    ((u.zipIdx k).flatMap fun (a : String × ℕ) => [((a.1, (none : Option String)), (a.2 : ℚ))]).lookup (g, none) =
      some ((k + u.idxOf g : ℕ) : ℚ) := by
  induction u with
  | nil => intro k h; simp at h
  | cons a rest ih =>
    intro k h
    simp only [List.zipIdx_cons, List.flatMap_cons, List.cons_append, List.nil_append]
    by_cases hg : g = a
    · subst hg; simp [List.lookup]
    · have hb : ((g, (none : Option String)) == (a, none)) = false := by simpa using hg
      have hm : g ∈ rest := by
        rcases List.mem_cons.mp h with h | h
        · exact absurd h hg
        · exact h
      simp only [List.lookup, hb]
      rw [ih (k + 1) hm, List.idxOf_cons_ne _ (Ne.symm hg)]
      congr 2
      omega

theorem groupMap_length (u : List String) (k : ℕ) :
    ((u.zipIdx k).flatMap fun (a : String × ℕ) => [((a.1, (none : Option String)), (a.2 : ℚ))]).length = u.length := by
  induction u generalizing k with
  | nil => simp
  | cons a rest ih => simp [List.zipIdx_cons, ih]

/-- The map of groups to positions that `plot_simple` computes for the groups `sorted` of one direction (a permutation of
the groups of the records). -/
theorem groups_ticks (sorted : List String) (h : sorted ≠ []) :
    ∃ t, discreteTicks sorted none none = some t ∧ t.hashmap =
      (firstsOf sorted).zipIdx.flatMap fun (a : String × ℕ) => [((a.1, (none : Option String)), (a.2 : ℚ))] := by
  have hne : firstsOf sorted ≠ [] := by
    obtain ⟨a, ha⟩ := List.exists_mem_of_ne_nil _ h
    exact List.ne_nil_of_mem ((mem_firstsOf sorted a).mpr ha)
  refine ⟨_, by simp [discreteTicks, tickType, hne]; rfl, ?_⟩
  simp [tickHashmap]

theorem axesOf_eq (sorted gs : List String) (hp : sorted.Perm gs) (t : DiscreteTicks)
    (ht : discreteTicks sorted none none = some t) (i : ℕ) (g : String) (hg : gs[i]? = some g) :
    axesOf t.hashmap gs i = (((firstsOf sorted).idxOf g : ℕ) : ℚ) ∧ g ∈ firstsOf sorted := by
  have hm : g ∈ sorted := hp.mem_iff.mpr (List.mem_of_getElem? hg)
  have hne : sorted ≠ [] := List.ne_nil_of_mem hm
  obtain ⟨t', ht', hh⟩ := groups_ticks sorted hne
  rw [ht] at ht'; cases ht'
  have hmem := (mem_firstsOf sorted g).mpr hm
  have hl := groupMap_lookup (firstsOf sorted) g 0 hmem
  have hemp : t.hashmap.isEmpty = false := by
    rw [hh]
    have := groupMap_length (firstsOf sorted) 0
    cases hx : ((firstsOf sorted).zipIdx.flatMap fun (a : String × ℕ) => [((a.1, (none : Option String)), (a.2 : ℚ))]) with
    | nil =>
      rw [hx] at this
      exact absurd (List.length_eq_zero_iff.mp this.symm) (List.ne_nil_of_mem hmem)
    | cons _ _ => rfl
  unfold axesOf
  rw [hemp, hg, hh]
  simp only [Bool.false_eq_true, if_false]
  refine ⟨?_, hmem⟩
  erw [hl]
  simp

/-! ## C143 -/

/-- Two records are drawn in the same row (column) of subplots exactly when they have the same group; the rows are numbered
`0, 1, …` without gap. -/
theorem C143_same_subplot_iff (sorted gs : List String) (hp : sorted.Perm gs) (t : DiscreteTicks)
    (ht : discreteTicks sorted none none = some t) (i j : ℕ) (a b : String) (hi : gs[i]? = some a) (hj : gs[j]? = some b) :
    axesOf t.hashmap gs i = axesOf t.hashmap gs j ↔ a = b := by
  obtain ⟨h1, h2⟩ := axesOf_eq sorted gs hp t ht i a hi
  obtain ⟨h3, h4⟩ := axesOf_eq sorted gs hp t ht j b hj
  rw [h1, h3]
  constructor
  · intro h
    exact (List.idxOf_inj h2).mp (by exact_mod_cast h)
  · rintro rfl; rfl

example : ∃ t, discreteTicks ["a", "b", "b"] none none = some t ∧
    (List.range 3).map (axesOf t.hashmap ["b", "a", "b"]) = [1, 0, 1] := ⟨_, rfl, by decide +kernel⟩

/-- With groups in both directions, the figure is completed exactly when every combination of a row group and a column
group has a record; otherwise the limits of an empty subplot are missing and the figure fails. -/
theorem C143_completes_iff (sy sx gy gx : List String) (hy : sy.Perm gy) (hx : sx.Perm gx) (hlen : gy.length = gx.length)
    (ty tx : DiscreteTicks) (hty : discreteTicks sy none none = some ty) (htx : discreteTicks sx none none = some tx) :
    limitsComplete ty.hashmap tx.hashmap (drawnAxes ty.hashmap tx.hashmap gy gx gy.length) = true ↔
      ∀ a ∈ gy, ∀ b ∈ gx, ∃ i : ℕ, gy[i]? = some a ∧ gx[i]? = some b := by
  have len : ∀ (s : List String) (t : DiscreteTicks), discreteTicks s none none = some t →
      max t.hashmap.length 1 = (firstsOf s).length ∧ t.hashmap.length = (firstsOf s).length := by
    intro s t ht
    by_cases hs : s = []
    · subst hs; simp [discreteTicks, tickType, firstsOf] at ht
    · obtain ⟨t', ht', hh⟩ := groups_ticks s hs
      rw [ht] at ht'; cases ht'
      have h1 : t.hashmap.length = (firstsOf s).length := by rw [hh]; exact groupMap_length _ _
      obtain ⟨a, ha⟩ := List.exists_mem_of_ne_nil _ hs
      have h2 : 0 < (firstsOf s).length := List.length_pos_of_mem ((mem_firstsOf s a).mpr ha)
      exact ⟨by omega, h1⟩
  simp only [limitsComplete, List.all_eq_true, List.mem_range, List.contains_iff_mem, drawnAxes, List.mem_map,
    (len sy ty hty).1, (len sx tx htx).1]
  constructor
  · intro h a ha b hb
    have ha' : a ∈ firstsOf sy := (mem_firstsOf sy a).mpr (hy.mem_iff.mpr ha)
    have hb' : b ∈ firstsOf sx := (mem_firstsOf sx b).mpr (hx.mem_iff.mpr hb)
    obtain ⟨i, hi, heq⟩ := h _ (List.idxOf_lt_length_iff.mpr ha') _ (List.idxOf_lt_length_iff.mpr hb')
    have hg1 : gy[i]? = some gy[i] := List.getElem?_eq_getElem hi
    have hg2 : gx[i]? = some (gx[i]'(hlen ▸ hi)) := List.getElem?_eq_getElem (hlen ▸ hi)
    obtain ⟨h1, h2⟩ := axesOf_eq sy gy hy ty hty i _ hg1
    obtain ⟨h3, h4⟩ := axesOf_eq sx gx hx tx htx i _ hg2
    rw [h1, h3, Prod.mk.injEq] at heq
    refine ⟨i, ?_, ?_⟩
    · rw [hg1, (List.idxOf_inj h2).mp (by exact_mod_cast heq.1)]
    · rw [hg2, (List.idxOf_inj h4).mp (by exact_mod_cast heq.2)]
  · intro h r hr c hc
    have hra : (firstsOf sy)[r] ∈ gy := hy.mem_iff.mp ((mem_firstsOf sy _).mp (List.getElem_mem hr))
    have hcb : (firstsOf sx)[c] ∈ gx := hx.mem_iff.mp ((mem_firstsOf sx _).mp (List.getElem_mem hc))
    obtain ⟨i, hi, hj⟩ := h _ hra _ hcb
    have hil : i < gy.length := (List.getElem?_eq_some_iff.mp hi).1
    refine ⟨i, hil, ?_⟩
    obtain ⟨h1, _⟩ := axesOf_eq sy gy hy ty hty i _ hi
    obtain ⟨h3, _⟩ := axesOf_eq sx gx hx tx htx i _ hj
    rw [h1, h3, (firstsOf_nodup sy).idxOf_getElem r hr, (firstsOf_nodup sx).idxOf_getElem c hc]

example : ∃ ty tx, discreteTicks ["a", "b"] none none = some ty ∧ discreteTicks ["p", "p"] none none = some tx ∧
    limitsComplete ty.hashmap tx.hashmap (drawnAxes ty.hashmap tx.hashmap ["a", "b"] ["p", "p"] 2) = true :=
  ⟨_, _, rfl, rfl, by decide +kernel⟩

/-- Two records with different row groups and different column groups: the figure fails. -/
theorem C143_completes_false :
    ∃ ty tx, discreteTicks ["a", "b"] none none = some ty ∧ discreteTicks ["p", "q"] none none = some tx ∧
      limitsComplete ty.hashmap tx.hashmap (drawnAxes ty.hashmap tx.hashmap ["a", "b"] ["p", "q"] 2) = false :=
  ⟨_, _, rfl, rfl, by decide +kernel⟩

/-- Records beyond the end of the list of groups (some record had no group, see C141) are drawn in the first row. -/
theorem C143_missing_group (h : List ((String × Option String) × ℚ)) (gs : List String) (i : ℕ) (hi : gs.length ≤ i) :
    axesOf h gs i = 0 := by
  unfold axesOf
  rw [List.getElem?_eq_none hi]
  simp

/-- Grouping by two variables is not done at all: everything is drawn in one subplot. -/
theorem C143_two_variables (majors minors gs : List String) (hm : majors ≠ []) (hn : minors ≠ []) :
    ∃ t, discreteTicks majors (some minors) none = some t ∧ ∀ i, axesOf t.hashmap gs i = 0 := by
  have h1 : firstsOf majors ≠ [] := by
    obtain ⟨a, ha⟩ := List.exists_mem_of_ne_nil _ hm
    exact List.ne_nil_of_mem ((mem_firstsOf majors a).mpr ha)
  have h2 : firstsOf minors ≠ [] := by
    obtain ⟨a, ha⟩ := List.exists_mem_of_ne_nil _ hn
    exact List.ne_nil_of_mem ((mem_firstsOf minors a).mpr ha)
  refine ⟨_, by simp [discreteTicks, tickType, h1, h2]; rfl, ?_⟩
  intro i
  have : tickHashmap (firstsOf majors) (some (firstsOf minors)) none = [] := by simp [tickHashmap]
  simp [axesOf, this]

example : ∃ t, discreteTicks ["a", "b"] (some ["u", "v"]) none = some t ∧ ∀ i, axesOf t.hashmap ["a,u", "b,v"] i = 0 :=
  C143_two_variables _ _ _ (by simp) (by simp)

/-! ## C144 -/

/-- The data contain a number. -/
def Spec.HasNumber (data : List NanQ) : Prop := ∃ x : ℚ, some x ∈ data

open Spec

theorem nanMin_spec (data : List NanQ) :
    (nanMin data = none ↔ ¬ HasNumber data) ∧
      ∀ m, nanMin data = some m → some m ∈ data ∧ ∀ x : ℚ, some x ∈ data → m ≤ x := by
  induction data with
  | nil => simp [nanMin, HasNumber]
  | cons a rest ih =>
    cases a with
    | none => simpa [nanMin, HasNumber] using ih
    | some a =>
      simp only [nanMin]
      cases hr : nanMin rest with
      | none =>
        have hno := ih.1.mp hr
        refine ⟨by simp [HasNumber], ?_⟩
        intro m hm
        simp only [Option.some.injEq] at hm; subst hm
        refine ⟨by simp, ?_⟩
        intro x hx
        rcases List.mem_cons.mp hx with hx | hx
        · cases hx; exact le_refl _
        · exact absurd ⟨x, hx⟩ hno
      | some b =>
        obtain ⟨h1, h2⟩ := ih.2 b hr
        refine ⟨by simp [HasNumber], ?_⟩
        intro m hm
        simp only [Option.some.injEq] at hm; subst hm
        constructor
        · rcases min_choice a b with h | h
          · rw [h]; simp
          · rw [h]; exact List.mem_cons_of_mem _ h1
        · intro x hx
          rcases List.mem_cons.mp hx with hx | hx
          · cases hx; exact min_le_left _ _
          · exact (min_le_right _ _).trans (h2 x hx)

theorem nanMax_spec (data : List NanQ) :
    (nanMax data = none ↔ ¬ HasNumber data) ∧
      ∀ m, nanMax data = some m → some m ∈ data ∧ ∀ x : ℚ, some x ∈ data → x ≤ m := by
  induction data with
  | nil => simp [nanMax, HasNumber]
  | cons a rest ih =>
    cases a with
    | none => simpa [nanMax, HasNumber] using ih
    | some a =>
      simp only [nanMax]
      cases hr : nanMax rest with
      | none =>
        have hno := ih.1.mp hr
        refine ⟨by simp [HasNumber], ?_⟩
        intro m hm
        simp only [Option.some.injEq] at hm; subst hm
        refine ⟨by simp, ?_⟩
        intro x hx
        rcases List.mem_cons.mp hx with hx | hx
        · cases hx; exact le_refl _
        · exact absurd ⟨x, hx⟩ hno
      | some b =>
        obtain ⟨h1, h2⟩ := ih.2 b hr
        refine ⟨by simp [HasNumber], ?_⟩
        intro m hm
        simp only [Option.some.injEq] at hm; subst hm
        constructor
        · rcases max_choice a b with h | h
          · rw [h]; simp
          · rw [h]; exact List.mem_cons_of_mem _ h1
        · intro x hx
          rcases List.mem_cons.mp hx with hx | hx
          · cases hx; exact le_max_left _ _
          · exact (h2 x hx).trans (le_max_right _ _)

theorem pyMin_some (a b : ℚ) : pyMin (some a) (some b) = some (min a b) := by
  unfold pyMin
  simp only
  split
  · next h => rw [min_eq_right h.le]
  · next h => rw [min_eq_left (not_lt.mp h)]

theorem pyMax_some (a b : ℚ) : pyMax (some a) (some b) = some (max a b) := by
  unfold pyMax
  simp only
  split
  · next h => rw [max_eq_right h.le]
  · next h => rw [max_eq_left (not_lt.mp h)]

/-- Both limits given: they are used, whatever the data. -/
theorem C144_given (a b : ℚ) (datas : List (List NanQ)) (h : datas ≠ []) :
    limitsAfter (some a, some b) datas = some ⟨some (some a), some (some b)⟩ := by
  have key : ∀ (ds : List (List NanQ)) (l : Option AxisLimits),
      l = none ∨ l = some ⟨some (some a), some (some b)⟩ → (ds ≠ [] ∨ l ≠ none) →
      ds.foldl (fun (b' : Option AxisLimits) (d : List NanQ) => some (axesLimits (some a, some b) b' d)) l =
        some ⟨some (some a), some (some b)⟩ := by
    intro ds
    induction ds with
    | nil =>
      intro l h1 h2
      rcases h1 with rfl | rfl
      · simp at h2
      · rfl
    | cons d rest ih =>
      intro l h1 _
      simp only [List.foldl_cons]
      apply ih
      · right
        rcases h1 with rfl | rfl <;> simp [axesLimits]
      · right; simp
  exact key datas none (Or.inl rfl) (Or.inl h)

example : limitsAfter (some 0, some 1) [[some 5], [none, some (-3)]] = some ⟨some (some 0), some (some 1)⟩ :=
  C144_given 0 1 _ (by simp)

/-- The smallest of a number, if there is one, and all data. -/
def Spec.IsLowest (given : Option ℚ) (datas : List (List NanQ)) (m : ℚ) : Prop :=
  (given = some m ∨ ∃ d ∈ datas, some m ∈ d) ∧ (∀ a, given = some a → m ≤ a) ∧
    ∀ d ∈ datas, ∀ x : ℚ, some x ∈ d → m ≤ x

/-- The largest of a number, if there is one, and all data. -/
def Spec.IsHighest (given : Option ℚ) (datas : List (List NanQ)) (m : ℚ) : Prop :=
  (given = some m ∨ ∃ d ∈ datas, some m ∈ d) ∧ (∀ a, given = some a → a ≤ m) ∧
    ∀ d ∈ datas, ∀ x : ℚ, some x ∈ d → x ≤ m

theorem limits_invariant (given : Option ℚ × Option ℚ) (hg : given.1 = none ∨ given.2 = none) (more : List (List NanQ)) :
    ∀ (done : List (List NanQ)) (lo hi : ℚ), (∀ d ∈ more, HasNumber d) → IsLowest given.1 done lo →
      IsHighest given.2 done hi →
      ∃ lo' hi', more.foldl (fun (b : Option AxisLimits) (d : List NanQ) => some (axesLimits given b d))
          (some ⟨some (some lo), some (some hi)⟩) = some ⟨some (some lo'), some (some hi')⟩ ∧
        IsLowest given.1 (done ++ more) lo' ∧ IsHighest given.2 (done ++ more) hi' := by
  induction more with
  | nil => intro done lo hi _ h1 h2; exact ⟨lo, hi, rfl, by simpa using h1, by simpa using h2⟩
  | cons d rest ih =>
    intro done lo hi hn h1 h2
    have hd := hn d (by simp)
    obtain ⟨m, hm⟩ : ∃ m, nanMin d = some m := by
      cases h : nanMin d with
      | none => exact absurd hd ((nanMin_spec d).1.mp h)
      | some m => exact ⟨m, rfl⟩
    obtain ⟨M, hM⟩ : ∃ M, nanMax d = some M := by
      cases h : nanMax d with
      | none => exact absurd hd ((nanMax_spec d).1.mp h)
      | some m => exact ⟨m, rfl⟩
    obtain ⟨m1, m2⟩ := (nanMin_spec d).2 m hm
    obtain ⟨M1, M2⟩ := (nanMax_spec d).2 M hM
    have hstep : axesLimits given (some ⟨some (some lo), some (some hi)⟩) d =
        ⟨some (some (min m lo)), some (some (max M hi))⟩ := by
      have : given.1 = none ∨ given.2 = none ∨ (some (some lo) : Option NanQ) = none ∨
          (some (some hi) : Option NanQ) = none := by tauto
      simp only [axesLimits, Option.getD_some, if_pos this, hm, hM, pyMin_some, pyMax_some]
    simp only [List.foldl_cons, hstep]
    have := ih (done ++ [d]) (min m lo) (max M hi) (fun d' hd' => hn d' (List.mem_cons_of_mem _ hd')) ?_ ?_
    · simpa using this
    · refine ⟨?_, fun a ha => (min_le_right _ _).trans (h1.2.1 a ha), ?_⟩
      · rcases min_choice m lo with h | h
        · rw [h]; exact Or.inr ⟨d, by simp, m1⟩
        · rw [h]
          rcases h1.1 with h' | ⟨d', hd', h'⟩
          · exact Or.inl h'
          · exact Or.inr ⟨d', List.mem_append_left _ hd', h'⟩
      · intro d' hd' x hx
        rcases List.mem_append.mp hd' with hd' | hd'
        · exact (min_le_right _ _).trans (h1.2.2 d' hd' x hx)
        · rw [List.mem_singleton] at hd'; subst hd'
          exact (min_le_left _ _).trans (m2 x hx)
    · refine ⟨?_, fun a ha => (h2.2.1 a ha).trans (le_max_right _ _), ?_⟩
      · rcases max_choice M hi with h | h
        · rw [h]; exact Or.inr ⟨d, by simp, M1⟩
        · rw [h]
          rcases h2.1 with h' | ⟨d', hd', h'⟩
          · exact Or.inl h'
          · exact Or.inr ⟨d', List.mem_append_left _ hd', h'⟩
      · intro d' hd' x hx
        rcases List.mem_append.mp hd' with hd' | hd'
        · exact (h2.2.2 d' hd' x hx).trans (le_max_right _ _)
        · rw [List.mem_singleton] at hd'; subst hd'
          exact (M2 x hx).trans (le_max_left _ _)

/-- At least one limit not given: after drawing any records that each contain a number, the lower limit is the smallest of
all data and of the given lower limit, and likewise the upper one; so the limits contain all the data drawn on the
subplot. -/
theorem C144_contains_partial (given : Option ℚ × Option ℚ) (hg : given.1 = none ∨ given.2 = none) (datas : List (List NanQ))
    (hne : datas ≠ []) (hn : ∀ d ∈ datas, HasNumber d) :
    ∃ lo hi, limitsAfter given datas = some ⟨some (some lo), some (some hi)⟩ ∧ IsLowest given.1 datas lo ∧
      IsHighest given.2 datas hi := by
  cases datas with
  | nil => exact absurd rfl hne
  | cons d rest =>
    have hd := hn d (by simp)
    obtain ⟨m, hm⟩ : ∃ m, nanMin d = some m := by
      cases h : nanMin d with
      | none => exact absurd hd ((nanMin_spec d).1.mp h)
      | some m => exact ⟨m, rfl⟩
    obtain ⟨M, hM⟩ : ∃ M, nanMax d = some M := by
      cases h : nanMax d with
      | none => exact absurd hd ((nanMax_spec d).1.mp h)
      | some m => exact ⟨m, rfl⟩
    obtain ⟨m1, m2⟩ := (nanMin_spec d).2 m hm
    obtain ⟨M1, M2⟩ := (nanMax_spec d).2 M hM
    obtain ⟨ga, gb⟩ := given
    have hlo : ∃ lo, (match ga.map some with | none => nanMin d | some b => pyMin (nanMin d) b) = some lo ∧
        IsLowest ga [d] lo := by
      cases ga with
      | none =>
        refine ⟨m, by simp [hm], Or.inr ⟨d, by simp, m1⟩, by simp, ?_⟩
        intro d' hd' x hx; rw [List.mem_singleton] at hd'; subst hd'; exact m2 x hx
      | some a =>
        refine ⟨min m a, by simp [hm, pyMin_some], ?_, ?_, ?_⟩
        · rcases min_choice m a with h | h
          · rw [h]; exact Or.inr ⟨d, by simp, m1⟩
          · rw [h]; exact Or.inl rfl
        · intro a' ha'; cases ha'; exact min_le_right _ _
        · intro d' hd' x hx; rw [List.mem_singleton] at hd'; subst hd'; exact (min_le_left _ _).trans (m2 x hx)
    have hhi : ∃ hi, (match gb.map some with | none => nanMax d | some b => pyMax (nanMax d) b) = some hi ∧
        IsHighest gb [d] hi := by
      cases gb with
      | none =>
        refine ⟨M, by simp [hM], Or.inr ⟨d, by simp, M1⟩, by simp, ?_⟩
        intro d' hd' x hx; rw [List.mem_singleton] at hd'; subst hd'; exact M2 x hx
      | some a =>
        refine ⟨max M a, by simp [hM, pyMax_some], ?_, ?_, ?_⟩
        · rcases max_choice M a with h | h
          · rw [h]; exact Or.inr ⟨d, by simp, M1⟩
          · rw [h]; exact Or.inl rfl
        · intro a' ha'; cases ha'; exact le_max_right _ _
        · intro d' hd' x hx; rw [List.mem_singleton] at hd'; subst hd'; exact (M2 x hx).trans (le_max_left _ _)
    obtain ⟨lo, h1, h1'⟩ := hlo
    obtain ⟨hi, h2, h2'⟩ := hhi
    have hstep : axesLimits (ga, gb) none d = ⟨some (some lo), some (some hi)⟩ := by
      have hg' : ga = none ∨ gb = none ∨ (ga.map some : Option NanQ) = none ∨ (gb.map some : Option NanQ) = none := by
        rcases hg with h | h
        · exact Or.inl h
        · exact Or.inr (Or.inl h)
      simp only [axesLimits, Option.getD_none, if_pos hg']
      simp only [AxisLimits.mk.injEq, Option.some.injEq]
      refine ⟨?_, ?_⟩
      · cases ga <;> exact h1
      · cases gb <;> exact h2
    simp only [limitsAfter, List.foldl_cons, hstep]
    have := limits_invariant (ga, gb) hg rest [d] lo hi (fun d' hd' => hn d' (List.mem_cons_of_mem _ hd')) h1' h2'
    simpa using this

example : limitsAfter (none, none) [[some 3, none], [some 1, some 2]] = some ⟨some (some 1), some (some 3)⟩ := by
  simp [limitsAfter, axesLimits, nanMin, nanMax, pyMin, pyMax]
  norm_num

/-- A lower limit given without an upper one is kept exactly when no value drawn lies below it. -/
theorem C144_one_sided_iff (a : ℚ) (datas : List (List NanQ)) (hne : datas ≠ []) (hn : ∀ d ∈ datas, HasNumber d) :
    (∃ hi, limitsAfter (some a, none) datas = some ⟨some (some a), some (some hi)⟩) ↔
      ∀ d ∈ datas, ∀ x : ℚ, some x ∈ d → a ≤ x := by
  obtain ⟨lo, hi, h, h1, _⟩ := C144_contains_partial (some a, none) (Or.inr rfl) datas hne hn
  rw [h]
  constructor
  · rintro ⟨hi', he⟩
    simp only [Option.some.injEq, AxisLimits.mk.injEq] at he
    obtain ⟨rfl, _⟩ := he
    exact h1.2.2
  · intro hall
    refine ⟨hi, ?_⟩
    have : lo = a := by
      apply le_antisymm (h1.2.1 a rfl)
      rcases h1.1 with h' | ⟨d, hd, h'⟩
      · simp only [Option.some.injEq] at h'; exact h'.le
      · exact hall d hd lo h'
    rw [this]

/-- A given lower limit is not respected. -/
theorem C144_one_sided_false :
    limitsAfter (some 0, none) [[some (-5), some 2]] = some ⟨some (some (-5)), some (some 2)⟩ := by
  simp [limitsAfter, axesLimits, nanMin, nanMax, pyMin]
  norm_num

/-- A record of which all values are NaN makes the limits forget the records before it. -/
theorem C144_nan_false :
    limitsAfter (none, none) [[some 1, some 9], [none], [some 4, some 5]] = some ⟨some (some 4), some (some 5)⟩ := by
  simp [limitsAfter, axesLimits, nanMin, nanMax, pyMin, pyMax]
  norm_num

/-- With fewer limits than subplots, the further subplots use the limits given for the first one. -/
theorem C144_which_limits (given : List (Option ℚ × Option ℚ)) (hne : given ≠ []) (i : ℕ) :
    limitsFor given i = some (given.getD (if i < given.length then i else 0) (none, none)) := by
  have hpos : 0 < given.length := List.length_pos_of_ne_nil hne
  unfold limitsFor
  by_cases h : i < given.length
  · rw [if_neg (by omega), if_pos h, List.getElem?_eq_getElem h]
    simp [List.getD, List.getElem?_eq_getElem h]
  · rw [if_pos (by omega), if_neg h, List.getElem?_eq_getElem hpos]
    simp [List.getD, List.getElem?_eq_getElem hpos]

example : limitsFor [(some 0, some 1), (some 5, some 6)] 2 = some (some 0, some 1) := by decide +kernel

end GeNSIT
