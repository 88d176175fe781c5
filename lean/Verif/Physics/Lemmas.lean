import Verif.Physics.Model
import Verif.Config.Props
import Verif.Inputs.Lemmas

/-!
# Writing back one value
-/

namespace GeNSIT

open Spec

/-- `q` leads through dictionaries to a plain value. -/
def Spec.PlainAt (s : Cfg) (q : List Key) : Prop :=
  q ≠ [] ∧ (∃ a, readAt s q = some (.leaf a)) ∧ ∀ r, r <+: q → r ≠ q → ∃ es, readAt s r = some (.node false es)

theorem pathFindEntries_setEntry (key k : Key) (sub sub' : Cfg)
    (h : ∀ cur all, pathFind key sub' cur all = pathFind key sub cur all) (es : List (Key × Cfg)) :
    ∀ cur all, es.lookup k = some sub →
      pathFindEntries key (setEntry es k sub') cur all = pathFindEntries key es cur all := by
  induction es with
  | nil => intro cur all hl; simp at hl
  | cons e rest ih =>
    intro cur all hl
    obtain ⟨k', v'⟩ := e
    by_cases hk : k = k'
    · subst hk
      simp only [List.lookup, beq_self_eq_true, Option.some.injEq] at hl
      subst hl
      simp only [setEntry, if_true, pathFindEntries, pathFindEntry, h]
    · have hb : (k == k') = false := by simpa using hk
      simp only [List.lookup, hb] at hl
      simp only [setEntry, hk, if_false, pathFindEntries]
      exact ih _ _ hl

theorem leaf_no_extension {s : Cfg} {q : List Key} {a : Atom} (h : readAt s q = some (.leaf a)) {r : List Key}
    (hr : q <+: r) (hne : r ≠ q) : readAt s r = none := by
  obtain ⟨t, rfl⟩ := hr
  have ht : t ≠ [] := by rintro rfl; simp at hne
  clear hne
  induction q generalizing s with
  | nil =>
    simp only [readAt, Option.some.injEq] at h
    subst h
    cases t with
    | nil => exact absurd rfl ht
    | cons _ _ => rfl
  | cons k ks ih =>
    cases s with
    | leaf b => rfl
    | node l es =>
      simp only [List.cons_append, readAt] at h ⊢
      cases hk : es.lookup k with
      | none => rfl
      | some sub => rw [hk] at h; exact ih h

/-- Writing a value over a plain value. -/
theorem setPlain (v : Atom) (ks : List Key) : ∀ (k : Key) (s : Cfg), PlainAt s (k :: ks) →
    ∃ s', pathSet false s (.leaf v) (k :: ks) = some (s', true) ∧ readAt s' (k :: ks) = some (.leaf v) ∧
      (∀ r, r ≠ k :: ks → ¬ k :: ks <+: r → ¬ r <+: k :: ks → readAt s' r = readAt s r) ∧
      (∀ r es, readAt s r = some (.node false es) → ∃ es', readAt s' r = some (.node false es')) ∧
      (∀ key cur all, pathFind key s' cur all = pathFind key s cur all) := by
  induction ks with
  | nil =>
    rintro k s ⟨_, ⟨a, ha⟩, hd⟩
    obtain ⟨es, hes⟩ := hd [] List.nil_prefix (by simp)
    simp only [readAt, Option.some.injEq] at hes
    subst hes
    have hk : es.lookup k = some (.leaf a) := by
      simp only [readAt] at ha
      cases hk : es.lookup k with
      | none => rw [hk] at ha; simp at ha
      | some x => rw [hk] at ha; simpa [readAt] using ha
    refine ⟨.node false (setEntry es k (.leaf v)), rfl, ?_, ?_, ?_, ?_⟩
    · simp only [readAt, lookup_setEntry_self]
    · intro r h1 h2 h3
      cases r with
      | nil => exact absurd List.nil_prefix h3
      | cons k2 r =>
        have hne : k2 ≠ k := by
          rintro rfl
          exact h2 (by simp)
        simp only [readAt, lookup_setEntry_ne es _ hne]
    · intro r fs hr
      cases r with
      | nil => exact ⟨_, rfl⟩
      | cons k2 r =>
        by_cases hne : k2 = k
        · subst hne
          simp only [readAt, hk] at hr
          cases r <;> simp [readAt] at hr
        · exact ⟨fs, by simp only [readAt, lookup_setEntry_ne es _ hne] at hr ⊢; exact hr⟩
    · intro key cur all
      simp only [pathFind]
      exact pathFindEntries_setEntry key k (.leaf a) (.leaf v) (fun _ _ => rfl) es cur all hk
  | cons k' ks ih =>
    rintro k s ⟨_, ⟨a, ha⟩, hd⟩
    obtain ⟨es, hes⟩ := hd [] List.nil_prefix (by simp)
    simp only [readAt, Option.some.injEq] at hes
    subst hes
    obtain ⟨sub, hk⟩ : ∃ sub, es.lookup k = some sub := by
      cases hk : es.lookup k with
      | none => simp [readAt, hk] at ha
      | some x => exact ⟨x, rfl⟩
    have hsub : PlainAt sub (k' :: ks) := by
      refine ⟨by simp, ⟨a, by simpa only [readAt, hk] using ha⟩, ?_⟩
      intro r hr hne
      obtain ⟨fs, hfs⟩ := hd (k :: r) ((List.prefix_cons_inj k).mpr hr) (by simpa using hne)
      exact ⟨fs, by simpa only [readAt, hk] using hfs⟩
    obtain ⟨sub', h1, h2, h3, h4, h5⟩ := ih k' sub hsub
    refine ⟨.node false (setEntry es k sub'), by simp [pathSet, hk, h1], ?_, ?_, ?_, ?_⟩
    · simp only [readAt, lookup_setEntry_self] at h2 ⊢
      exact h2
    · intro r g1 g2 g3
      cases r with
      | nil => exact absurd List.nil_prefix g3
      | cons k2 r =>
        by_cases hne : k2 = k
        · subst hne
          have e1 : readAt (.node false (setEntry es k2 sub')) (k2 :: r) = readAt sub' r := by
            simp only [readAt, lookup_setEntry_self]
          have e2 : readAt (.node false es) (k2 :: r) = readAt sub r := by simp only [readAt, hk]
          rw [e1, e2]
          exact h3 r (by simpa using g1) (fun h => g2 ((List.prefix_cons_inj k2).mpr h))
            (fun h => g3 ((List.prefix_cons_inj k2).mpr h))
        · simp only [readAt, lookup_setEntry_ne es _ hne]
    · intro r fs hr
      cases r with
      | nil => exact ⟨_, rfl⟩
      | cons k2 r =>
        by_cases hne : k2 = k
        · subst hne
          have e1 : readAt (.node false (setEntry es k2 sub')) (k2 :: r) = readAt sub' r := by
            simp only [readAt, lookup_setEntry_self]
          have e2 : readAt (.node false es) (k2 :: r) = readAt sub r := by simp only [readAt, hk]
          rw [e1]; rw [e2] at hr
          exact h4 r fs hr
        · exact ⟨fs, by simp only [readAt, lookup_setEntry_ne es _ hne] at hr ⊢; exact hr⟩
    · intro key cur all
      simp only [pathFind]
      exact pathFindEntries_setEntry key k sub sub' (h5 key) es cur all hk

/-- The value used for a parameter. -/
def hyperValue (learned : List String) (trial : Option Suggested) (given : List (String × Atom)) (p : String) : Option Atom :=
  if p ∈ learned then none
  else
    match trial.bind fun (t : Suggested) => t.get p with
    | some v => some v
    | none => given.lookup p

theorem hyperStep_params {learned : List String} {trial : Option Suggested} {given : List (String × Atom)}
    {st st' : HyperState} {p : String} (h : hyperStep learned trial given st p = some st') (p' : String) :
    st'.params.lookup p' = if p' = p ∧ p ∉ learned then hyperValue learned trial given p else st.params.lookup p' := by
  unfold hyperStep at h
  by_cases hl : p ∈ learned
  · simp only [hl, if_true, Option.some.injEq] at h
    subst h; simp [hl]
  · simp only [hl, if_false] at h
    simp only [hyperValue, hl, if_false, not_false_eq_true, and_true]
    cases ht : trial.bind fun (t : Suggested) => t.get p with
    | some v =>
      rw [ht] at h
      simp only [Option.some.injEq] at h
      subst h
      simp only [lookup_inSet]
    | none =>
      rw [ht] at h
      simp only at h ⊢
      cases hg : given.lookup p with
      | none => rw [hg] at h; cases h
      | some v =>
        rw [hg] at h
        simp only at h
        split at h
        · split at h
          · cases h
          · simp only [Option.some.injEq] at h
            subst h; simp only [lookup_inSet]
        · simp only [Option.some.injEq] at h
          subst h; simp only [lookup_inSet]

theorem hyperLoop_params {learned : List String} {trial : Option Suggested} {given : List (String × Atom)} (ns : List String) :
    ∀ (st st' : HyperState), hyperLoop learned trial given st ns = some st' → ∀ p',
      st'.params.lookup p' = if p' ∈ ns ∧ p' ∉ learned then hyperValue learned trial given p' else st.params.lookup p' := by
  induction ns with
  | nil =>
    intro st st' h p'
    simp only [hyperLoop, Option.some.injEq] at h
    subst h; simp
  | cons p rest ih =>
    intro st st' h p'
    simp only [hyperLoop] at h
    split at h
    · cases h
    · next st1 h1 =>
      rw [ih st1 st' h p', hyperStep_params h1 p']
      by_cases hp : p' = p
      · subst hp
        by_cases hl : p' ∈ learned <;> by_cases hm : p' ∈ rest <;> simp [hl, hm]
      · simp [hp]

end GeNSIT
