import Mathlib.Data.List.Forall2
import Mathlib.Data.List.Nodup
import Mathlib.Data.List.Range
import Mathlib.Tactic.Ring

/-!
# Property theorems C176 (a composition of functions over combinations of arguments) and C177 (functions applied group by group)

`xr_apply_and_combine_wrapper` (`utils/misc_utils.py:1379-1499`), `xr_islice` (`:1294-1312`) and `xr_apply_by_group` (`:1315-1377`), which the commands that
reproduce the paper's figures and user expressions apply to stored samples.

`xr.combine_by_coords`, `stack` and `unstack` are modelled by their contract: the combined array has the output of each combination at the coordinates of the combination, and an
empty list of outputs gives an empty data set, which has no sweep dimension.
-/

namespace GeNSIT

/-- A Python dictionary of keyword arguments. -/
abbrev KwArgs (V : Type) := String → Option V

/-- `{**a, **b}`. -/
def kwMerge {V : Type} (a b : KwArgs V) : KwArgs V := fun k => match b k with
  | some v => some v
  | none => a k

/-- An entry of `functions`: a name and a callable (`none`: it raises). -/
structure ComposedFn (D V : Type) where
  name : String
  fn : D → KwArgs V → Option D

/-- The ways in which the wrapper raises. -/
inductive CombineErr | type | key | conflict | failed (name : String)
deriving DecidableEq, Repr

variable {D V : Type}

/-- `itertools.product` (`misc_utils.py:1396`). -/
def productOf : List (List V) → List (List V)
  | [] => [[]]
  | vs :: r => vs.flatMap fun v => (productOf r).map (v :: ·)

/-- `dict(zip(sweep_keys, vals))` (`misc_utils.py:1439`). -/
def sweptArgs (keys : List String) (vals : List V) : KwArgs V := fun k => (keys.zip vals).lookup k

/-- `fixed_kwargs.get(function_name, {})` (`misc_utils.py:1440`). -/
def fixedFor (fixed : List (String × KwArgs V)) (name : String) : KwArgs V := (fixed.lookup name).getD fun _ => none

/-- The functions in order, all of them with all swept arguments (`misc_utils.py:1426-1464`). -/
def composeAll (fixed : List (String × KwArgs V)) (swept : KwArgs V) : List (ComposedFn D V) → D → Except CombineErr D
  | [], d => .ok d
  | f :: fs, d => match f.fn d (kwMerge (fixedFor fixed f.name) swept) with
    | none => .error (.failed f.name)
    | some d' => composeAll fixed swept fs d'

/-- The loop over combinations (`misc_utils.py:1417-1482`). -/
def composeEach (fixed : List (String × KwArgs V)) (keys : List String) (fs : List (ComposedFn D V)) (d : D) :
    List (List V) → Except CombineErr (List (List V × D))
  | [] => .ok []
  | c :: cs => match composeAll fixed (sweptArgs keys c) fs d with
    | .error e => .error e
    | .ok y => match composeEach fixed keys fs d cs with
      | .error e => .error e
      | .ok r => .ok ((c, y) :: r)

/-- `xr_apply_and_combine_wrapper` (`misc_utils.py:1379-1499`).  `coupled`: groups of arguments that change together. -/
def applyAndCombine (d : D) (fs : List (ComposedFn D V)) (fixed : List (String × KwArgs V)) (isolated : List (String × List V))
    (coupled : List (String × List (String × List V))) : Except CombineErr (List (List V × D)) :=
  -- `list(target_name_keyvals.values)` (line 1391): the method is not called
  if coupled ≠ [] then .error .type
  else
    -- lines 1393-1400: the third condition repeats the second
    let vals := if isolated ≠ [] then productOf (isolated.map (·.2)) else []
    -- lines 1404-1415: argument names are compared with function names
    if (isolated.map (·.1)).any fun k => (fixed.map (·.1)).contains k then .error .conflict
    else match composeEach fixed (isolated.map (·.1)) fs d vals with
      | .error e => .error e
      -- lines 1485-1499: an empty data set has no dimension to restack
      | .ok [] => .error .key
      | .ok r => .ok r

/-- `xr_islice` (`misc_utils.py:1294-1312`) along a dimension of a size: the positions kept; `none`: it raises.  Negative arguments are not modelled. -/
def islicePositions (size start step : ℕ) (stop : Option ℕ) : Option (List ℕ) :=
  match stop with
  -- `min(data.sizes[dim], end)` with `end` None (line 1308)
  | none => none
  | some e => if step = 0 then none else some ((List.range (min e size)).filter fun i => decide (start ≤ i) && decide ((i - start) % step = 0))

/-! ### Specification -/

/-- A combination takes one of the values of each swept argument. -/
def Spec.Combination (isolated : List (String × List V)) (c : List V) : Prop := List.Forall₂ (fun kv v => v ∈ kv.2) isolated c

/-- The value of an argument of a function in a combination: the swept value, else the fixed one of that function. -/
def Spec.argumentOf (fixed : List (String × KwArgs V)) (isolated : List (String × List V)) (c : List V) (name k : String) : Option V :=
  match ((isolated.map (·.1)).zip c).lookup k with
  | some v => some v
  | none => match fixed.lookup name with
    | some kw => kw k
    | none => none

/-- Applying the functions one after the other, each to the output of the one before, turns `d` into `y`. -/
inductive Spec.Composes (arg : String → String → Option V) : List (ComposedFn D V) → D → D → Prop
  | nil (d : D) : Spec.Composes arg [] d d
  | cons (f : ComposedFn D V) (fs : List (ComposedFn D V)) (d m y : D) : f.fn d (arg f.name) = some m → Spec.Composes arg fs m y → Spec.Composes arg (f :: fs) d y

/-! ### Lemmas -/

theorem mem_productOf (ls : List (List V)) (c : List V) : c ∈ productOf ls ↔ List.Forall₂ (fun l v => v ∈ l) ls c := by
  induction ls generalizing c with
  | nil => simp [productOf]
  | cons l ls ih =>
    simp only [productOf, List.mem_flatMap, List.mem_map]
    constructor
    · rintro ⟨v, hv, c', hc, rfl⟩
      exact List.Forall₂.cons hv ((ih c').1 hc)
    · intro h
      cases h with
      | cons hv hc => exact ⟨_, hv, _, (ih _).2 hc, rfl⟩

theorem length_productOf (ls : List (List V)) : (productOf ls).length = (ls.map List.length).prod := by
  induction ls with
  | nil => rfl
  | cons l ls ih =>
    simp only [productOf, List.length_flatMap, List.length_map, ih, List.map_cons, List.prod_cons, List.map_const', List.sum_replicate_nat]

theorem nodup_productOf (ls : List (List V)) (h : ∀ l ∈ ls, l.Nodup) : (productOf ls).Nodup := by
  induction ls with
  | nil => simp [productOf]
  | cons l ls ih =>
    have hl := ih fun l' h' => h l' (by simp [h'])
    simp only [productOf]
    rw [List.nodup_flatMap]
    refine ⟨fun v _ => hl.map fun a b hab => (List.cons.inj hab).2, ?_⟩
    refine (h l (by simp)).imp fun {a b} hab => ?_
    simp only [Function.onFun]
    intro x h1 h2
    rw [List.mem_map] at h1 h2
    obtain ⟨_, _, rfl⟩ := h1
    obtain ⟨_, _, h3⟩ := h2
    exact hab (List.cons.inj h3).1.symm

theorem merged_eq (fixed : List (String × KwArgs V)) (isolated : List (String × List V)) (c : List V) (name : String) :
    kwMerge (fixedFor fixed name) (sweptArgs (isolated.map (·.1)) c) = Spec.argumentOf fixed isolated c name := by
  funext k
  unfold kwMerge sweptArgs Spec.argumentOf fixedFor
  cases ((isolated.map (·.1)).zip c).lookup k with
  | some v => rfl
  | none =>
    cases fixed.lookup name <;> rfl

theorem composeAll_ok (fixed : List (String × KwArgs V)) (isolated : List (String × List V)) (c : List V) (fs : List (ComposedFn D V)) (d y : D) :
    composeAll fixed (sweptArgs (isolated.map (·.1)) c) fs d = .ok y ↔ Spec.Composes (Spec.argumentOf fixed isolated c) fs d y := by
  induction fs generalizing d with
  | nil =>
    simp only [composeAll, Except.ok.injEq]
    constructor
    · rintro rfl; exact .nil _
    · intro h; cases h; rfl
  | cons f fs ih =>
    simp only [composeAll, merged_eq]
    cases hf : f.fn d (Spec.argumentOf fixed isolated c f.name) with
    | none =>
      simp only [reduceCtorEq, false_iff]
      intro h
      cases h with
      | cons _ _ _ m _ h1 _ => rw [hf] at h1; cases h1
    | some m =>
      simp only
      rw [ih]
      constructor
      · exact fun h => .cons f fs d m y hf h
      · intro h
        cases h with
        | cons _ _ _ m' _ h1 h2 =>
          rw [hf] at h1
          cases h1
          exact h2

theorem composeEach_ok (fixed : List (String × KwArgs V)) (keys : List String) (fs : List (ComposedFn D V)) (d : D) (cs : List (List V)) (r : List (List V × D)) :
    composeEach fixed keys fs d cs = .ok r ↔ List.Forall₂ (fun c p => p.1 = c ∧ composeAll fixed (sweptArgs keys c) fs d = .ok p.2) cs r := by
  induction cs generalizing r with
  | nil =>
    simp only [composeEach, Except.ok.injEq]
    constructor
    · rintro rfl; exact .nil
    · intro h; cases h; rfl
  | cons c cs ih =>
    simp only [composeEach]
    cases hc : composeAll fixed (sweptArgs keys c) fs d with
    | error e =>
      simp only [reduceCtorEq, false_iff]
      intro h
      cases h with
      | cons h1 _ => rw [hc] at h1; cases h1.2
    | ok y =>
      simp only
      cases he : composeEach fixed keys fs d cs with
      | error e =>
        simp only [reduceCtorEq, false_iff]
        intro h
        cases h with
        | cons _ h2 => rw [← ih, he] at h2; cases h2
      | ok r' =>
        simp only [Except.ok.injEq]
        have h' := (ih r').1 he
        constructor
        · rintro rfl
          exact .cons ⟨rfl, hc⟩ h'
        · intro h
          cases h with
          | @cons _ p _ q h1 h2 =>
            obtain ⟨h3, h4⟩ := h1
            rw [← ih, he] at h2
            cases h2
            rw [hc] at h4
            cases h4
            rw [← h3]

theorem composeEach_total (fixed : List (String × KwArgs V)) (keys : List String) (fs : List (ComposedFn D V)) (d : D) (cs : List (List V))
    (h : ∀ c ∈ cs, ∃ y, composeAll fixed (sweptArgs keys c) fs d = .ok y) : ∃ r, composeEach fixed keys fs d cs = .ok r := by
  induction cs with
  | nil => exact ⟨[], rfl⟩
  | cons c cs ih =>
    obtain ⟨y, hy⟩ := h c (by simp)
    obtain ⟨r, hr⟩ := ih fun c' h' => h c' (by simp [h'])
    exact ⟨(c, y) :: r, by simp only [composeEach, hy, hr]⟩

/-! ### C176 -/

/-- **C176 (what is computed).**  A result has exactly one entry for each combination of the swept arguments (as many as the product of their numbers of values), and it is the output
of the functions in their order, each with its own fixed arguments and the swept ones. -/
theorem C176_result_partial (d : D) (fs : List (ComposedFn D V)) (fixed : List (String × KwArgs V)) (isolated : List (String × List V))
    (coupled : List (String × List (String × List V))) (hv : ∀ kv ∈ isolated, kv.2.Nodup) (r : List (List V × D))
    (h : applyAndCombine d fs fixed isolated coupled = .ok r) :
    (∀ c, (∃ y, (c, y) ∈ r) ↔ Spec.Combination isolated c) ∧ (∀ c y, (c, y) ∈ r → Spec.Composes (Spec.argumentOf fixed isolated c) fs d y) ∧
      (r.map (·.1)).Nodup ∧ r.length = (isolated.map fun kv => kv.2.length).prod := by
  unfold applyAndCombine at h
  by_cases hc : coupled ≠ []
  · rw [if_pos hc] at h; cases h
  rw [if_neg hc] at h
  simp only at h
  by_cases hk : ((isolated.map (·.1)).any fun k => (fixed.map (·.1)).contains k) = true
  · rw [if_pos hk] at h; cases h
  rw [if_neg hk] at h
  by_cases hi : isolated ≠ []
  · rw [if_pos hi] at h
    cases he : composeEach fixed (isolated.map (·.1)) fs d (productOf (isolated.map (·.2))) with
    | error e => rw [he] at h; cases h
    | ok r' =>
      have hr : r' = r := by
        rw [he] at h
        cases r' with
        | nil => cases h
        | cons => exact Except.ok.inj h
      subst hr
      have hf := (composeEach_ok _ _ _ _ _ _).1 he
      have hmap : r'.map (·.1) = productOf (isolated.map (·.2)) := by
        clear h he hi hk
        generalize productOf (isolated.map (·.2)) = cs at hf
        induction hf with
        | nil => rfl
        | cons h1 _ ih => rw [List.map_cons, ih, h1.1]
      have hmem : ∀ p ∈ r', composeAll fixed (sweptArgs (isolated.map (·.1)) p.1) fs d = .ok p.2 := by
        clear h he hi hk hmap
        generalize productOf (isolated.map (·.2)) = cs at hf
        intro p hp
        induction hf with
        | nil => cases hp
        | cons h1 _ ih =>
          rcases List.mem_cons.1 hp with rfl | hp
          · rw [h1.1]; exact h1.2
          · exact ih hp
      refine ⟨fun c => ?_, fun c y hy => (composeAll_ok _ _ _ _ _ _).1 (hmem _ hy), ?_, ?_⟩
      · have : (∃ y, (c, y) ∈ r') ↔ c ∈ r'.map (·.1) := by simp
        rw [this, hmap, mem_productOf, List.forall₂_map_left_iff]
        rfl
      · rw [hmap]
        exact nodup_productOf _ (by simpa using fun b a hab => hv (a, b) hab)
      · rw [← List.length_map (f := (·.1)), hmap, length_productOf, List.map_map]
        rfl
  · rw [if_neg hi] at h
    simp only [composeEach] at h
    cases h

/-- **C176 (when it completes).**  Exactly when arguments are swept in isolation only (at least one, each with at least one value), none of them has the name of a function with fixed
arguments, and the functions do not raise on any combination. -/
theorem C176_completes_iff (d : D) (fs : List (ComposedFn D V)) (fixed : List (String × KwArgs V)) (isolated : List (String × List V))
    (coupled : List (String × List (String × List V))) :
    (∃ r, applyAndCombine d fs fixed isolated coupled = .ok r) ↔
      coupled = [] ∧ isolated ≠ [] ∧ (∀ kv ∈ isolated, kv.2 ≠ []) ∧ (∀ kv ∈ isolated, kv.1 ∉ fixed.map (·.1)) ∧
        ∀ c, Spec.Combination isolated c → ∃ y, Spec.Composes (Spec.argumentOf fixed isolated c) fs d y := by
  have hne : productOf (isolated.map (·.2)) ≠ [] ↔ ∀ kv ∈ isolated, kv.2 ≠ [] := by
    rw [← List.length_pos_iff, length_productOf]
    clear coupled
    induction isolated with
    | nil => simp
    | cons kv r ih =>
      rw [List.map_cons, List.map_cons, List.prod_cons, List.forall_mem_cons, ← ih, ← List.length_pos_iff]
      exact ⟨fun h => ⟨Nat.pos_of_mul_pos_right h, Nat.pos_of_mul_pos_left h⟩, fun h => Nat.mul_pos h.1 h.2⟩
  have hkey : ((isolated.map (·.1)).any fun k => (fixed.map (·.1)).contains k) = true ↔ ¬ ∀ kv ∈ isolated, kv.1 ∉ fixed.map (·.1) := by
    simp only [List.any_eq_true, List.mem_map, List.contains_iff_mem]
    push Not
    constructor
    · rintro ⟨k, ⟨kv, h1, rfl⟩, h2⟩; exact ⟨kv, h1, h2⟩
    · rintro ⟨kv, h1, h2⟩; exact ⟨kv.1, ⟨kv, h1, rfl⟩, h2⟩
  unfold applyAndCombine
  by_cases hc : coupled ≠ []
  · rw [if_pos hc]
    simp [hc]
  rw [if_neg hc]
  simp only
  by_cases hk : ((isolated.map (·.1)).any fun k => (fixed.map (·.1)).contains k) = true
  · rw [if_pos hk]
    have := hkey.1 hk
    constructor
    · rintro ⟨r, h⟩; cases h
    · intro h; exact absurd h.2.2.2.1 this
  rw [if_neg hk]
  have hk' : ∀ kv ∈ isolated, kv.1 ∉ fixed.map (·.1) := by
    by_contra h; exact hk (hkey.2 h)
  by_cases hi : isolated ≠ []
  · rw [if_pos hi]
    constructor
    · rintro ⟨r, h⟩
      cases he : composeEach fixed (isolated.map (·.1)) fs d (productOf (isolated.map (·.2))) with
      | error e => rw [he] at h; cases h
      | ok r' =>
        have hf := (composeEach_ok _ _ _ _ _ _).1 he
        refine ⟨not_not.1 hc, hi, ?_, hk', ?_⟩
        · rw [← hne]
          intro h0
          rw [h0] at hf
          cases hf
          rw [he] at h
          cases h
        · intro c hcomb
          have hm : c ∈ productOf (isolated.map (·.2)) := by
            rw [mem_productOf, List.forall₂_map_left_iff]
            exact hcomb
          clear h he
          generalize productOf (isolated.map (·.2)) = cs at hf hm
          induction hf with
          | nil => cases hm
          | cons h1 _ ih =>
            rcases List.mem_cons.1 hm with rfl | hm
            · exact ⟨_, (composeAll_ok _ _ _ _ _ _).1 h1.2⟩
            · exact ih hm
    · rintro ⟨_, _, h1, _, h2⟩
      obtain ⟨r, hr⟩ := composeEach_total fixed (isolated.map (·.1)) fs d (productOf (isolated.map (·.2))) fun c hcm => by
        rw [mem_productOf, List.forall₂_map_left_iff] at hcm
        obtain ⟨y, hy⟩ := h2 c hcm
        exact ⟨y, (composeAll_ok _ _ _ _ _ _).2 hy⟩
      rw [hr]
      cases r with
      | nil =>
        have hf := (composeEach_ok _ _ _ _ _ _).1 hr
        have := (hne.2 h1)
        generalize productOf (isolated.map (·.2)) = cs at hf this
        cases hf
        exact absurd rfl this
      | cons p r => exact ⟨_, rfl⟩
  · rw [if_neg hi]
    simp [composeEach, hi]

/-- Arguments that change together always raise, with or without isolated ones; so does calling it with nothing to sweep. -/
theorem C176_coupled_raises (d : D) (fs : List (ComposedFn D V)) (fixed : List (String × KwArgs V)) (isolated : List (String × List V))
    (coupled : List (String × List (String × List V))) :
    (coupled ≠ [] → applyAndCombine d fs fixed isolated coupled = .error .type) ∧ applyAndCombine d fs fixed [] [] = .error .key := by
  refine ⟨fun h => by simp only [applyAndCombine, if_pos h], rfl⟩

/-- An argument that is both fixed (for a function) and swept is not rejected: the fixed value is ignored, whatever it is. -/
theorem C176_overridden (d : D) (fs : List (ComposedFn D V)) (fixed fixed' : List (String × KwArgs V)) (isolated : List (String × List V))
    (hn : fixed.map (·.1) = fixed'.map (·.1)) (hk : ∀ name k, k ∉ isolated.map (·.1) → fixedFor fixed name k = fixedFor fixed' name k)
    (coupled : List (String × List (String × List V))) : applyAndCombine d fs fixed isolated coupled = applyAndCombine d fs fixed' isolated coupled := by
  have hl : ∀ (keys : List String) (c : List V), keys.length = c.length → ∀ k, k ∈ keys → (keys.zip c).lookup k ≠ none := by
    intro keys
    induction keys with
    | nil => intro c _ k hk; cases hk
    | cons a keys ih =>
      intro c hlen k hk
      cases c with
      | nil => cases hlen
      | cons b c =>
        rw [List.zip_cons_cons, List.lookup_cons]
        by_cases hka : k = a
        · simp [hka]
        · have : (k == a) = false := by simpa using hka
          rw [this]
          exact ih c (by simpa using hlen) k ((List.mem_cons.1 hk).resolve_left hka)
  have hm : ∀ (c : List V), c.length = isolated.length → ∀ name,
      kwMerge (fixedFor fixed name) (sweptArgs (isolated.map (·.1)) c) = kwMerge (fixedFor fixed' name) (sweptArgs (isolated.map (·.1)) c) := by
    intro c hlen name
    funext k
    unfold kwMerge sweptArgs
    by_cases hmem : k ∈ isolated.map (·.1)
    · have := hl (isolated.map (·.1)) c (by simp [hlen]) k hmem
      cases hz : ((isolated.map (·.1)).zip c).lookup k with
      | none => exact absurd hz this
      | some v => rfl
    · rw [hk name k hmem]
  have ha : ∀ (c : List V), c.length = isolated.length → ∀ (fs : List (ComposedFn D V)) (d : D),
      composeAll fixed (sweptArgs (isolated.map (·.1)) c) fs d = composeAll fixed' (sweptArgs (isolated.map (·.1)) c) fs d := by
    intro c hlen fs
    induction fs with
    | nil => intro d; rfl
    | cons f fs ih =>
      intro d
      simp only [composeAll, hm c hlen]
      cases f.fn d (kwMerge (fixedFor fixed' f.name) (sweptArgs (isolated.map (·.1)) c)) with
      | none => rfl
      | some m => exact ih m
  have he : ∀ (cs : List (List V)), (∀ c ∈ cs, c.length = isolated.length) →
      composeEach fixed (isolated.map (·.1)) fs d cs = composeEach fixed' (isolated.map (·.1)) fs d cs := by
    intro cs
    induction cs with
    | nil => intro _; rfl
    | cons c cs ih =>
      intro h
      simp only [composeEach, ha c (h c (by simp)), ih fun c' h' => h c' (by simp [h'])]
  unfold applyAndCombine
  simp only
  rw [hn, he]
  intro c hc
  by_cases hi : isolated ≠ []
  · rw [if_pos hi, mem_productOf] at hc
    simpa using hc.length_eq.symm
  · rw [if_neg hi] at hc
    cases hc

/-- "It completes for every isolated and coupled sweep on which the functions do not raise" is false. -/
theorem C176_false : ¬ ∀ (fs : List (ComposedFn ℕ ℕ)) (isolated : List (String × List ℕ)) (coupled : List (String × List (String × List ℕ))),
    (∀ f ∈ fs, ∀ d kw, f.fn d kw ≠ none) → ∃ r, applyAndCombine 0 fs [] isolated coupled = .ok r := by
  intro h
  obtain ⟨r, hr⟩ := h [] [("end", [1, 2])] [("a", [("a", [1]), ("b", [2])])] (by simp)
  rw [(C176_coupled_raises _ _ _ _ _).1 (by simp)] at hr
  cases hr

/-- "Arguments that are swept and fixed at once are rejected" is false, and an argument is rejected for having the name of a function. -/
theorem C176_conflict_false :
    (∃ r, applyAndCombine 0 [⟨"islice", fun d kw => some (d + (kw "end").getD 0)⟩] [("islice", fun k => if k = "end" then some 5 else none)] [("end", [1, 2])] [] = .ok r) ∧
      applyAndCombine (V := ℕ) 0 [⟨"islice", fun d _ => some d⟩] [("mean", fun _ => none)] [("mean", [1])] [] = .error .conflict :=
  ⟨⟨_, rfl⟩, rfl⟩

/-- **C176 (slices).**  With an end, the positions kept are those from the start in steps up to the end or the size, in order; without an end (its default) it raises. -/
theorem C176_islice (size start step : ℕ) (hs : 0 < step) :
    (∀ e, ∃ l, islicePositions size start step (some e) = some l ∧ l.Pairwise (· < ·) ∧ ∀ i, i ∈ l ↔ i < e ∧ i < size ∧ ∃ k, i = start + k * step) ∧
      islicePositions size start step none = none := by
  refine ⟨fun e => ⟨_, by rw [islicePositions, if_neg (by omega)], ?_, fun i => ?_⟩, rfl⟩
  · exact List.Pairwise.filter _ List.pairwise_lt_range
  · rw [List.mem_filter, List.mem_range]
    simp only [Bool.and_eq_true, decide_eq_true_eq, lt_min_iff]
    constructor
    · rintro ⟨⟨h1, h2⟩, h3, h4⟩
      refine ⟨h1, h2, (i - start) / step, ?_⟩
      have := Nat.div_add_mod (i - start) step
      rw [Nat.mul_comm] at this
      omega
    · rintro ⟨h1, h2, k, rfl⟩
      refine ⟨⟨h1, h2⟩, by omega, ?_⟩
      rw [Nat.add_sub_cancel_left, Nat.mul_mod_left]

example : applyAndCombine (V := ℕ) 10 [⟨"f", fun d kw => some (d + (kw "a").getD 0)⟩, ⟨"g", fun d kw => some (d * (kw "b").getD 1)⟩] [("f", fun _ => none)]
    [("a", [1, 2]), ("b", [3, 5])] [] = .ok [([1, 3], 33), ([1, 5], 55), ([2, 3], 36), ([2, 5], 60)] := rfl

example : islicePositions 10 1 3 (some 8) = some [1, 4, 7] := by decide

/-! ### C177 -/

/-- Values of the dictionary of swept arguments: arguments of a group, or an argument. -/
inductive KwVal (V : Type)
  | leaf (v : V)
  | dict (l : List (String × KwVal V))

/-- `d[k]` of a dictionary value; `none`: not a dictionary, or no such key. -/
def KwVal.item : KwVal V → String → Option (KwVal V)
  | .leaf _, _ => none
  | .dict l, k => l.lookup k

/-- The label used for a group (`misc_utils.py:1332-1338`): the coordinates of the group are those of the sweep followed by those of the other dimensions; `sweepDims`
and `otherDims` are the names of each, `dims` the dimensions asked for. -/
def groupSublabel (sweepDims otherDims dims : List String) (label : List String) : Option (List String) :=
  dims.mapM fun d => if d ∈ sweepDims then label[sweepDims.idxOf d]? else label[sweepDims.length - 1 + otherDims.idxOf d]?

/-- The loop over groups (`misc_utils.py:1324-1373`): `kw` is overwritten with the arguments of the group (line 1352). -/
def applyByGroup (f : D → KwVal V → Option D) : List (String × D) → KwVal V → Option (List D)
  | [], _ => some []
  | (label, d) :: rest, kw => match kw.item label with
    | none => none
    | some kw' => match f d kw' with
      | none => none
      | some y => (applyByGroup f rest kw').map (y :: ·)

/-- **C177 (one group).**  With one group the function gets the arguments of the group. -/
theorem C177_single (f : D → KwVal V → Option D) (label : String) (d : D) (kw args : KwVal V) (ha : kw.item label = some args) :
    applyByGroup f [(label, d)] kw = (f d args).map fun y => [y] := by
  simp only [applyByGroup, ha]
  cases f d args <;> rfl

/-- **C177 (exact behaviour with more).**  The arguments of the second group are looked for among those of the *first*. -/
theorem C177_second (f : D → KwVal V → Option D) (l1 l2 : String) (d1 d2 : D) (rest : List (String × D)) (kw args : KwVal V) (ha : kw.item l1 = some args)
    (hn : args.item l2 = none) : applyByGroup f ((l1, d1) :: (l2, d2) :: rest) kw = none := by
  simp only [applyByGroup, ha, hn]
  cases f d1 args <;> rfl

/-- With arguments by group written as they are meant to be (for each label a dictionary of plain values) more than two groups always raise, whatever the labels. -/
theorem C177_three_raise (f : D → KwVal V → Option D) (g1 g2 g3 : String × D) (rest : List (String × D)) (args : List (String × List (String × V))) :
    applyByGroup f (g1 :: g2 :: g3 :: rest) (.dict (args.map fun a => (a.1, .dict (a.2.map fun kv => (kv.1, .leaf kv.2))))) = none := by
  have hlk : ∀ {A B : Type} (g : A → B) (l : List (String × A)) (k : String), (l.map fun a => (a.1, g a.2)).lookup k = (l.lookup k).map g := by
    intro A B g l k
    induction l with
    | nil => rfl
    | cons a l ih =>
      rw [List.map_cons, List.lookup_cons, List.lookup_cons]
      by_cases hk : (k == a.1) = true
      · rw [hk]; rfl
      · rw [Bool.not_eq_true] at hk
        rw [hk]; exact ih
  simp only [applyByGroup, KwVal.item]
  rw [hlk (fun l : List (String × V) => KwVal.dict (l.map fun kv => (kv.1, KwVal.leaf kv.2)))]
  cases args.lookup g1.1 with
  | none => rfl
  | some a =>
    simp only [Option.map_some, KwVal.item]
    cases f g1.2 (.dict (a.map fun kv => (kv.1, KwVal.leaf kv.2))) with
    | none => rfl
    | some y =>
      simp only
      rw [hlk (KwVal.leaf (V := V))]
      cases a.lookup g2.1 with
      | none => rfl
      | some v =>
        simp only [Option.map_some]
        cases f g2.2 (.leaf v) <;> rfl

/-- "Each group gets its own arguments" is false: two groups with arguments for both raise. -/
theorem C177_false : ¬ ∀ (f : ℕ → KwVal ℕ → Option ℕ) (groups : List (String × ℕ)) (kw : KwVal ℕ), (∀ d k, f d k ≠ none) →
    (∀ g ∈ groups, kw.item g.1 ≠ none) → ∃ r, applyByGroup f groups kw = some r ∧ r.length = groups.length := by
  intro h
  obtain ⟨r, hr, _⟩ := h (fun d _ => some d) [("a", 1), ("b", 2)] (.dict [("a", .dict [("x", .leaf 1)]), ("b", .dict [("x", .leaf 2)])]) (by simp) (by
    intro g hg
    simp only [List.mem_cons, List.not_mem_nil, or_false] at hg
    rcases hg with rfl | rfl <;> simp [KwVal.item, List.lookup])
  rw [C177_second (args := .dict [("x", .leaf 1)])] at hr
  · cases hr
  · rfl
  · rfl

/-- **C177 (labels).**  For dimensions of the sweep the label has the coordinates of the group. -/
theorem C177_label_sweep (sweepDims otherDims dims label : List String) (hd : ∀ d ∈ dims, d ∈ sweepDims) (hl : sweepDims.length ≤ label.length) :
    ∃ r, groupSublabel sweepDims otherDims dims label = some r ∧ List.Forall₂ (fun d c => (sweepDims.zip label).lookup d = some c) dims r := by
  have key : ∀ (sd lb : List String) (d : String), d ∈ sd → sd.length ≤ lb.length → ∃ c, lb[sd.idxOf d]? = some c ∧ (sd.zip lb).lookup d = some c := by
    intro sd
    induction sd with
    | nil => intro _ _ h; cases h
    | cons a sd ih =>
      intro lb d hd hl
      cases lb with
      | nil => simp at hl
      | cons b lb =>
        by_cases hda : d = a
        · subst hda
          exact ⟨b, by simp, by simp⟩
        · obtain ⟨c, h1, h2⟩ := ih lb d ((List.mem_cons.1 hd).resolve_left hda) (by simpa using hl)
          refine ⟨c, ?_, ?_⟩
          · rw [List.idxOf_cons_ne _ (fun h => hda h.symm), List.getElem?_cons_succ]
            exact h1
          · have : (d == a) = false := by simpa using hda
            rw [List.zip_cons_cons, List.lookup_cons, this]
            exact h2
  unfold groupSublabel
  induction dims with
  | nil => exact ⟨[], rfl, .nil⟩
  | cons d dims ih =>
    obtain ⟨r, h1, h2⟩ := ih fun d' h' => hd d' (by simp [h'])
    obtain ⟨c, h3, h4⟩ := key sweepDims label d (hd d (by simp)) hl
    refine ⟨c :: r, ?_, .cons h4 h2⟩
    rw [List.mapM_cons, if_pos (hd d (by simp)), h3, h1]
    rfl

/-- For the first other dimension it has the *last* coordinate of the sweep instead. -/
theorem C177_label_other (sweepDims otherDims sweepLabel otherLabel : List String) (d s : String) (hd : d ∉ sweepDims)
    (hs : sweepDims.length = sweepLabel.length + 1) : groupSublabel sweepDims (d :: otherDims) [d] (sweepLabel ++ s :: otherLabel) = some [s] := by
  simp only [groupSublabel, List.mapM_cons, List.mapM_nil, if_neg hd, List.idxOf_cons_self, hs]
  simp

example : groupSublabel ["sigma", "title"] ["time"] ["sigma", "time"] ["0.1", "total", "7"] = some ["0.1", "total"] := by decide

end GeNSIT
