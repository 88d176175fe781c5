import Verif.Cli.Model
import Mathlib.Data.List.Nodup
import Mathlib.Data.List.Induction

/-! # C107: the experiments that are run -/

namespace GeNSIT

section
variable {α : Type}

namespace Spec

/-- The experiments of the requested types, in the order of the configuration. -/
def requested (typeOf : α → Option String) (wanted : List String) (xs : List α) : List α :=
  xs.filter fun x => match typeOf x with
    | some t => wanted.contains t
    | none => false

/-- The last experiment of a type in the configuration. -/
def lastOfType (typeOf : α → Option String) (t : String) (xs : List α) : Option α :=
  xs.reverse.find? fun x => decide (typeOf x = some t)

end Spec

open Spec

theorem deleteAt_append (ys : List α) (y : α) (zs : List α) : deleteAt (ys ++ y :: zs) ys.length = ys ++ zs := by
  induction ys with
  | nil => rfl
  | cons x ys ih => simp [deleteAt, ih]

theorem deleteUnwanted_append (typeOf : α → Option String) (wanted : List String) (ys : List α) : ∀ (zs : List α),
    (∀ x ∈ ys, (typeOf x).isSome) →
    deleteUnwanted typeOf wanted ys.length (ys ++ zs) = some (requested typeOf wanted ys ++ zs) := by
  induction ys using List.reverseRecOn with
  | nil => intro zs _; rfl
  | append_singleton ys y ih =>
    intro zs h
    have hy : (typeOf y).isSome := h y (by simp)
    obtain ⟨t, ht⟩ := Option.isSome_iff_exists.mp hy
    rw [List.length_append, List.length_singleton]
    simp only [deleteUnwanted, List.append_assoc, List.singleton_append]
    rw [show (ys ++ y :: zs)[ys.length]? = some y by simp]
    simp only [Option.bind_eq_bind, Option.bind_some, ht]
    by_cases hw : wanted.contains t
    · simp only [hw, if_true]
      rw [ih (y :: zs) (fun x hx => h x (by simp [hx]))]
      have : t ∈ wanted := by simpa using hw
      simp [requested, ht, this]
    · simp only [hw]
      rw [if_neg (by simp), deleteAt_append, ih zs (fun x hx => h x (by simp [hx]))]
      have : t ∉ wanted := by simpa using hw
      simp [requested, ht, this]

theorem deleteUnwanted_none (typeOf : α → Option String) (wanted : List String) (ys : List α) : ∀ (zs : List α),
    (∃ x ∈ ys, typeOf x = none) → deleteUnwanted typeOf wanted ys.length (ys ++ zs) = none := by
  induction ys using List.reverseRecOn with
  | nil => rintro zs ⟨x, hx, _⟩; simp at hx
  | append_singleton ys y ih =>
    rintro zs ⟨x, hx, hn⟩
    rw [List.length_append, List.length_singleton]
    simp only [deleteUnwanted, List.append_assoc, List.singleton_append]
    rw [show (ys ++ y :: zs)[ys.length]? = some y by simp]
    simp only [Option.bind_eq_bind, Option.bind_some]
    cases ht : typeOf y with
    | none => rfl
    | some t =>
      have hx' : x ∈ ys := by
        rcases List.mem_append.mp hx with h | h
        · exact h
        · simp only [List.mem_singleton] at h; subst h; rw [hn] at ht; simp at ht
      simp only [Option.bind_some]
      split
      · exact ih _ ⟨x, hx', hn⟩
      · rw [deleteAt_append]; exact ih _ ⟨x, hx', hn⟩

theorem put_lookup (t u : String) (i : Nat) (d : List (String × Nat)) :
    (indexByType.put t i d).lookup u = if u = t then some i else d.lookup u := by
  induction d with
  | nil =>
    by_cases h : u = t
    · simp [indexByType.put, h]
    · have : (u == t) = false := by simpa using h
      simp [indexByType.put, List.lookup_cons, h, this]
  | cons e d ih =>
    obtain ⟨t', i'⟩ := e
    simp only [indexByType.put]
    by_cases h : t = t'
    · subst h
      by_cases hu : u = t
      · simp [hu]
      · have : (u == t) = false := by simpa using hu
        simp [List.lookup_cons, this, hu]
    · simp only [h, if_false, List.lookup_cons]
      by_cases hu : u = t'
      · subst hu; simp [Ne.symm h]
      · have : (u == t') = false := by simpa using hu
        rw [this]; exact ih

theorem put_keys (t : String) (i : Nat) (d : List (String × Nat)) :
    (indexByType.put t i d).map Prod.fst = if t ∈ d.map Prod.fst then d.map Prod.fst else d.map Prod.fst ++ [t] := by
  induction d with
  | nil => rfl
  | cons e d ih =>
    obtain ⟨t', i'⟩ := e
    simp only [indexByType.put]
    by_cases h : t = t'
    · subst h; simp
    · simp only [h, if_false, List.map_cons, ih, List.mem_cons, false_or]
      split <;> simp

theorem put_new {t : String} (i : Nat) {d : List (String × Nat)} (h : t ∉ d.map Prod.fst) :
    indexByType.put t i d = d ++ [(t, i)] := by
  induction d with
  | nil => rfl
  | cons e d ih =>
    obtain ⟨t', i'⟩ := e
    simp only [List.map_cons, List.mem_cons, not_or] at h
    simp only [indexByType.put, h.1, if_false, List.cons_append, ih h.2]

theorem indexByType_snoc (typeOf : α → Option String) (xs : List α) (x : α) : ∀ (i : Nat) (acc : List (String × Nat)),
    indexByType typeOf i (xs ++ [x]) acc =
      (indexByType typeOf i xs acc).bind fun d => (typeOf x).map fun t => indexByType.put t (i + xs.length) d := by
  induction xs with
  | nil =>
    intro i acc
    cases h : typeOf x <;> simp [indexByType, h]
  | cons y ys ih =>
    intro i acc
    simp only [List.cons_append, indexByType, Option.bind_eq_bind]
    cases typeOf y with
    | none => rfl
    | some t =>
      simp only [Option.bind_some]
      rw [ih]
      simp [Nat.add_comm, Nat.add_left_comm]

theorem indexByType_spec (typeOf : α → Option String) (xs : List α) : (∀ x ∈ xs, (typeOf x).isSome) →
    ∃ d, indexByType typeOf 0 xs [] = some d ∧ (d.map Prod.fst).Nodup ∧
      d.map Prod.fst = (xs.filterMap typeOf).eraseDups ∧
      (∀ t, t ∈ d.map Prod.fst → ∃ i, d.lookup t = some i ∧ xs[i]? = lastOfType typeOf t xs ∧ i < xs.length) := by
  induction xs using List.reverseRecOn with
  | nil => intro _; exact ⟨[], rfl, by simp, by simp [List.eraseDups_nil], by simp⟩
  | append_singleton xs x ih =>
    intro h
    obtain ⟨d, hd, hn, hk, hl⟩ := ih (fun y hy => h y (by simp [hy]))
    obtain ⟨t, ht⟩ := Option.isSome_iff_exists.mp (h x (by simp))
    refine ⟨indexByType.put t xs.length d, ?_, ?_, ?_, ?_⟩
    · rw [indexByType_snoc, hd, ht]; simp
    · rw [put_keys]
      split
      · exact hn
      · rename_i hm
        rw [List.nodup_append]
        exact ⟨hn, by simp, by rintro a ha b hb rfl; simp only [List.mem_singleton] at hb; exact hm (hb ▸ ha)⟩
    · rw [put_keys, hk, List.filterMap_append, List.eraseDups_append]
      by_cases hm : t ∈ xs.filterMap typeOf
      · have h1 : t ∈ (xs.filterMap typeOf).eraseDups := List.mem_eraseDups.mpr hm
        simp only [h1, if_true]
        have : List.removeAll (List.filterMap typeOf [x]) (List.filterMap typeOf xs) = [] := by
          simp [List.removeAll, ht]
          obtain ⟨y, hy, hyt⟩ := List.mem_filterMap.mp hm
          exact ⟨y, hy, hyt⟩
        rw [this]; simp
      · have h1 : t ∉ (xs.filterMap typeOf).eraseDups := fun he => hm (List.mem_eraseDups.mp he)
        simp only [h1, if_false]
        have : List.removeAll (List.filterMap typeOf [x]) (List.filterMap typeOf xs) = [t] := by
          simp [List.removeAll, ht]
          intro y hy hyt
          exact hm (List.mem_filterMap.mpr ⟨y, hy, hyt⟩)
        rw [this]; simp [List.eraseDups_cons]
    · intro u hu
      rw [put_lookup]
      by_cases hut : u = t
      · subst hut
        exact ⟨xs.length, by simp, by simp [lastOfType, ht], by simp⟩
      · simp only [hut, if_false]
        have hu' : u ∈ d.map Prod.fst := by
          rw [put_keys] at hu
          split at hu
          · exact hu
          · rcases List.mem_append.mp hu with h1 | h1
            · exact h1
            · simp at h1; exact absurd h1 hut
        obtain ⟨i, h1, h2, h3⟩ := hl u hu'
        refine ⟨i, h1, ?_, by simp; omega⟩
        rw [List.getElem?_append_left h3, h2]
        have : typeOf x ≠ some u := by rw [ht]; simpa using Ne.symm hut
        simp [lastOfType, this]

theorem indexByType_distinct (typeOf : α → Option String) (xs : List α) : (∀ x ∈ xs, (typeOf x).isSome) →
    (xs.filterMap typeOf).Nodup →
    indexByType typeOf 0 xs [] = some ((xs.filterMap typeOf).zip (List.range xs.length)) := by
  induction xs using List.reverseRecOn with
  | nil => intro _ _; rfl
  | append_singleton xs x ih =>
    intro h hn
    obtain ⟨t, ht⟩ := Option.isSome_iff_exists.mp (h x (by simp))
    rw [List.filterMap_append, List.nodup_append] at hn
    have hlen : (xs.filterMap typeOf).length = xs.length := by
      rw [List.length_filterMap_eq_countP]
      exact List.countP_eq_length.mpr (fun y hy => h y (by simp [hy]))
    rw [indexByType_snoc, ih (fun y hy => h y (by simp [hy])) hn.1, ht]
    simp only [Option.bind_some, Option.map_some, Nat.zero_add]
    rw [put_new]
    · rw [List.filterMap_append, List.length_append, List.length_singleton, List.range_succ,
        List.zip_append (by simp [hlen])]
      simp [ht]
    · rw [List.map_fst_zip (by simp [hlen])]
      intro hm
      exact hn.2.2 t hm t (by simp [ht]) rfl

theorem requested_typed {typeOf : α → Option String} {wanted : List String} {xs : List α} :
    ∀ x ∈ requested typeOf wanted xs, x ∈ xs ∧ ∃ t, typeOf x = some t ∧ t ∈ wanted := by
  intro x hx
  simp only [requested, List.mem_filter] at hx
  refine ⟨hx.1, ?_⟩
  cases h : typeOf x with
  | none => rw [h] at hx; simp at hx
  | some t => rw [h] at hx; exact ⟨t, rfl, by simpa using hx.2⟩

theorem lastOfType_requested (typeOf : α → Option String) (wanted : List String) (xs : List α) {t : String} (ht : t ∈ wanted) :
    lastOfType typeOf t (requested typeOf wanted xs) = lastOfType typeOf t xs := by
  unfold lastOfType requested
  rw [← List.filter_reverse, List.find?_filter]
  congr 1
  funext x
  cases h : typeOf x with
  | none => simp
  | some u =>
    by_cases hu : u = t
    · subst hu; simp [ht]
    · simp [hu]

theorem mapM_some_of {β γ : Type} (f : β → Option γ) (g : β → γ) (l : List β) (h : ∀ b ∈ l, f b = some (g b)) :
    l.mapM f = some (l.map g) := by
  induction l with
  | nil => rfl
  | cons b l ih =>
    rw [List.mapM_cons, h b (by simp), ih (fun x hx => h x (by simp [hx]))]
    rfl

/-- **C107** What `gensit run -et T1 -et T2 …` sets up and runs, in full: one experiment for every requested type that
the configuration has, in the order in which the types first occur; it is the last one of that type. -/
theorem C107_exact (typeOf : α → Option String) (wanted : List String) (xs : List α) (h : ∀ x ∈ xs, (typeOf x).isSome) :
    ∃ rs, experimentsToRun typeOf wanted xs = some rs ∧
      rs.map Prod.fst = ((xs.filterMap typeOf).filter fun t => decide (t ∈ wanted)).eraseDups ∧
      ∀ t x, (t, x) ∈ rs ↔ t ∈ wanted ∧ lastOfType typeOf t xs = some x := by
  have hdel : deleteUnwanted typeOf wanted xs.length xs = some (requested typeOf wanted xs) := by
    simpa using deleteUnwanted_append typeOf wanted xs [] h
  have htyped : ∀ x ∈ requested typeOf wanted xs, (typeOf x).isSome := fun x hx => h x (requested_typed x hx).1
  obtain ⟨d, hd, hn, hk, hl⟩ := indexByType_spec typeOf (requested typeOf wanted xs) htyped
  have hfm : (requested typeOf wanted xs).filterMap typeOf = (xs.filterMap typeOf).filter fun t => decide (t ∈ wanted) := by
    clear hd hl hk hn htyped hdel
    induction xs with
    | nil => rfl
    | cons x xs ih =>
      have ih := ih (fun y hy => h y (by simp [hy]))
      obtain ⟨t, ht⟩ := Option.isSome_iff_exists.mp (h x (by simp))
      by_cases hw : t ∈ wanted
      · simpa [requested, ht, hw] using ih
      · simpa [requested, ht, hw] using ih
  have hwanted : ∀ t, t ∈ d.map Prod.fst → t ∈ wanted := by
    intro t ht
    rw [hk, hfm, List.mem_eraseDups] at ht
    simpa using (List.mem_filter.mp ht).2
  have lookup_mem' : ∀ {d : List (String × Nat)}, (d.map Prod.fst).Nodup → ∀ {t i}, (t, i) ∈ d ↔ d.lookup t = some i := by
    intro d
    induction d with
    | nil => intro _ t i; simp
    | cons e d ih =>
      intro hn t i
      obtain ⟨t', i'⟩ := e
      simp only [List.map_cons, List.nodup_cons] at hn
      rw [List.lookup_cons, List.mem_cons]
      by_cases ht : t = t'
      · subst ht
        have : (t, i) ∉ d := fun hm => hn.1 (List.mem_map.mpr ⟨_, hm, rfl⟩)
        simp [this, eq_comm]
      · have hb : (t == t') = false := by simpa using ht
        rw [hb, ← ih hn.2]; simp [ht]
  -- every index of the dictionary is valid
  have hget : ∀ e ∈ d, ∃ x, (requested typeOf wanted xs)[e.2]? = some x ∧ lastOfType typeOf e.1 xs = some x := by
    intro e he
    have ht : e.1 ∈ d.map Prod.fst := List.mem_map.mpr ⟨e, he, rfl⟩
    obtain ⟨i, h1, h2, h3⟩ := hl e.1 ht
    have : d.lookup e.1 = some e.2 := (lookup_mem' hn).mp he
    rw [this] at h1
    obtain rfl : e.2 = i := by simpa using h1
    rw [lastOfType_requested typeOf wanted xs (hwanted _ ht)] at h2
    refine ⟨(requested typeOf wanted xs)[e.2], by simp [h3], ?_⟩
    rw [← h2]; simp [h3]
  have hrun : experimentsToRun typeOf wanted xs =
      d.mapM (fun e => ((requested typeOf wanted xs)[e.2]?).map fun x => (e.1, x)) := by
    unfold experimentsToRun
    rw [hdel]
    simp only [Option.bind_eq_bind, Option.bind_some, hd]
  -- the result, entry by entry
  have main : ∀ d' : List (String × Nat), (∀ e ∈ d', ∃ x, (requested typeOf wanted xs)[e.2]? = some x ∧ lastOfType typeOf e.1 xs = some x) →
      ∃ rs, d'.mapM (fun e => ((requested typeOf wanted xs)[e.2]?).map fun x => (e.1, x)) = some rs ∧
        rs.map Prod.fst = d'.map Prod.fst ∧ ∀ t x, (t, x) ∈ rs ↔ t ∈ d'.map Prod.fst ∧ lastOfType typeOf t xs = some x := by
    intro d'
    induction d' with
    | nil => intro _; exact ⟨[], rfl, rfl, by simp⟩
    | cons e d' ih =>
      intro hh
      obtain ⟨x, hx1, hx2⟩ := hh e (by simp)
      obtain ⟨rs, h1, h2, h3⟩ := ih (fun e' he' => hh e' (by simp [he']))
      refine ⟨(e.1, x) :: rs, by rw [List.mapM_cons, hx1, h1]; rfl, by simp [h2], ?_⟩
      intro t y
      rw [List.mem_cons, h3, List.map_cons, List.mem_cons, Prod.mk.injEq]
      constructor
      · rintro (⟨rfl, rfl⟩ | ⟨h4, h5⟩)
        · exact ⟨Or.inl rfl, hx2⟩
        · exact ⟨Or.inr h4, h5⟩
      · rintro ⟨rfl | h4, h5⟩
        · rw [hx2] at h5; left; exact ⟨rfl, by simpa using h5.symm⟩
        · exact Or.inr ⟨h4, h5⟩
  obtain ⟨rs, h1, h2, h3⟩ := main d hget
  refine ⟨rs, by rw [hrun, h1], by rw [h2, hk, hfm], ?_⟩
  intro t x
  rw [h3]
  constructor
  · rintro ⟨h4, h5⟩; exact ⟨hwanted t h4, h5⟩
  · rintro ⟨h4, h5⟩
    refine ⟨?_, h5⟩
    rw [hk, hfm, List.mem_eraseDups, List.mem_filter]
    refine ⟨?_, by simpa using h4⟩
    have hm := List.mem_of_find?_eq_some h5
    have hp := List.find?_some h5
    exact List.mem_filterMap.mpr ⟨x, by simpa using hm, by simpa using hp⟩

/-- **C107** With pairwise different types, exactly the requested experiments are run, in the order of the
configuration.  (The full claim has no condition on the types; see `C107_same_type_false`.) -/
theorem C107_requested_partial (typeOf : α → Option String) (wanted : List String) (xs : List α)
    (h : ∀ x ∈ xs, (typeOf x).isSome) (hd : (xs.filterMap typeOf).Nodup) :
    (experimentsToRun typeOf wanted xs).map (·.map Prod.snd) = some (requested typeOf wanted xs) := by
  have hdel : deleteUnwanted typeOf wanted xs.length xs = some (requested typeOf wanted xs) := by
    simpa using deleteUnwanted_append typeOf wanted xs [] h
  have htyped : ∀ x ∈ requested typeOf wanted xs, (typeOf x).isSome := fun x hx => h x (requested_typed x hx).1
  have hnd : ((requested typeOf wanted xs).filterMap typeOf).Nodup :=
    hd.sublist (List.Sublist.filterMap _ List.filter_sublist)
  unfold experimentsToRun
  rw [hdel]
  simp only [Option.bind_eq_bind, Option.bind_some]
  rw [indexByType_distinct typeOf _ htyped hnd]
  simp only [Option.bind_some]
  generalize requested typeOf wanted xs = ys at htyped
  have hlen : (ys.filterMap typeOf).length = ys.length := by
    rw [List.length_filterMap_eq_countP]
    exact List.countP_eq_length.mpr htyped
  have key : ∀ (ts : List String) (is : List Nat), ts.length = is.length → (∀ i ∈ is, i < ys.length) →
      ((ts.zip is).mapM fun e => (ys[e.2]?).map fun x => (e.1, x)).map (·.map Prod.snd) = is.mapM (fun i => ys[i]?) := by
    intro ts
    induction ts with
    | nil => intro is hl _; cases is with | nil => rfl | cons _ _ => simp at hl
    | cons t ts ih =>
      intro is hl hi
      cases is with
      | nil => simp at hl
      | cons i is =>
        have := ih is (by simpa using hl) (fun j hj => hi j (by simp [hj]))
        rw [List.zip_cons_cons, List.mapM_cons, List.mapM_cons, ← this]
        have hlt := hi i (by simp)
        simp only [List.getElem?_eq_getElem hlt, Option.map_some, Option.bind_eq_bind, Option.bind_some]
        cases (List.mapM (fun e => (ys[e.2]?).map fun x => (e.1, x)) (ts.zip is)) <;> simp
  rw [key _ _ (by simp [hlen]) (by simp)]
  have h2 : ∀ (l : List Nat) (hl : ∀ i ∈ l, i < ys.length), l.mapM (fun i => ys[i]?) =
      some (l.pmap (fun i hi => ys[i]'hi) hl) := by
    intro l
    induction l with
    | nil => intro _; rfl
    | cons i l ih =>
      intro hl
      rw [List.mapM_cons, ih (fun j hj => hl j (by simp [hj])), List.getElem?_eq_getElem (hl i (by simp))]
      rfl
  rw [h2 _ (by simp)]
  congr 1
  apply List.ext_getElem
  · simp
  · intro i h1 h2; simp

/-- **C107** Without a requested type nothing is run. -/
theorem C107_nothing_requested (typeOf : α → Option String) (xs : List α) (h : ∀ x ∈ xs, (typeOf x).isSome) :
    experimentsToRun typeOf [] xs = some [] := by
  obtain ⟨rs, h1, h2, -⟩ := C107_exact typeOf [] xs h
  have : rs = [] := by simpa using h2
  rw [h1, this]

/-- **C107** An experiment without a type, requested or not, makes the set-up fail. -/
theorem C107_untyped_fails (typeOf : α → Option String) (wanted : List String) (xs : List α) (h : ∃ x ∈ xs, typeOf x = none) :
    experimentsToRun typeOf wanted xs = none := by
  have := deleteUnwanted_none typeOf wanted xs [] h
  rw [List.append_nil] at this
  unfold experimentsToRun
  rw [this]; rfl

/-- **C107**, the full claim "every experiment of a requested type is run", fails: of two experiments of the same type
only the last is run. -/
theorem C107_same_type_false :
    ¬ ∀ (xs : List (String × Nat)) (wanted : List String),
      ((experimentsToRun (fun x => some x.1) wanted xs).map fun rs => rs.map Prod.snd) =
        some (requested (fun x => some x.1) wanted xs) := by
  intro h
  have := h [("SIM_MCMC", 1), ("SIM_MCMC", 2)] ["SIM_MCMC"]
  revert this
  decide

example : experimentsToRun (fun x : String × Nat => some x.1) ["A", "C"] [("A", 1), ("B", 2), ("C", 3), ("A", 4)] =
    some [("A", ("A", 4)), ("C", ("C", 3))] := by decide

example : experimentsToRun (fun x : String × Nat => some x.1) ["A", "C"] [("A", 1), ("B", 2), ("C", 3)] =
    some [("A", ("A", 1)), ("C", ("C", 3))] := by decide

end

end GeNSIT
