import Verif.Config.Spec

/-! # Checkers used to exhibit concrete trees that meet the hypotheses -/

set_option linter.unusedSimpArgs false

namespace GeNSIT

open Spec

mutual
/-- All subtrees with their paths. -/
def subtrees : Cfg → List (List Key × Cfg)
  | .leaf a => [([], .leaf a)]
  | .node l es => ([], .node l es) :: subtreesEntries es
/-- Over the items. -/
def subtreesEntries : List (Key × Cfg) → List (List Key × Cfg)
  | [] => []
  | e :: rest => subtreesEntry e ++ subtreesEntries rest
/-- One item. -/
def subtreesEntry : Key × Cfg → List (List Key × Cfg)
  | (k, v) => (subtrees v).map fun (t : List Key × Cfg) => (k :: t.1, t.2)
end

theorem subtreesEntries_mem {es : List (Key × Cfg)} {e : Key × Cfg} {t : List Key × Cfg} (he : e ∈ es)
    (ht : t ∈ subtreesEntry e) : t ∈ subtreesEntries es := by
  induction es with
  | nil => simp at he
  | cons e0 es ih =>
    simp only [subtreesEntries, List.mem_append]
    rcases List.mem_cons.mp he with rfl | he
    · exact Or.inl ht
    · exact Or.inr (ih he)

theorem mem_subtrees (p : List Key) : ∀ (c x : Cfg), readAt c p = some x → (p, x) ∈ subtrees c := by
  induction p with
  | nil =>
    intro c x h
    cases c <;> (simp only [readAt, Option.some.injEq] at h; subst h; simp [subtrees])
  | cons k ks ih =>
    intro c x h
    cases c with
    | leaf a => simp [readAt] at h
    | node l es =>
      simp only [readAt] at h
      cases hl : es.lookup k with
      | none => rw [hl] at h; cases h
      | some v =>
        rw [hl] at h
        simp only [subtrees, List.mem_cons]
        right
        have hm : (k, v) ∈ es := by
          clear h
          induction es with
          | nil => simp at hl
          | cons e es ih =>
            obtain ⟨k0, v0⟩ := e
            simp only [List.lookup] at hl
            split at hl
            · rename_i heq; simp at heq; simp at hl; simp [heq, hl]
            · simp [ih hl]
        exact subtreesEntries_mem hm (by simp only [subtreesEntry]; exact List.mem_map.mpr ⟨(ks, x), ih v x h, rfl⟩)

/-- Check of one container. -/
def nodeOk : Cfg → Bool
  | .leaf _ => true
  | .node l es => decide (es.map Prod.fst).Nodup && (!l || decide (es.map Prod.fst = (List.range es.length).map Key.idx))

theorem wellFormed_of_check (c : Cfg) (h : ((subtrees c).all fun (t : List Key × Cfg) => nodeOk t.2) = true) :
    WellFormed c := by
  intro p l es hp
  have := List.all_eq_true.mp h _ (mem_subtrees p c _ hp)
  simp only [nodeOk, Bool.and_eq_true, decide_eq_true_eq, Bool.or_eq_true, Bool.not_eq_true'] at this
  refine ⟨this.1, fun hl => ?_⟩
  rcases this.2 with h2 | h2
  · rw [hl] at h2; cases h2
  · exact h2

theorem noRepeat_of_check (c : Cfg) (h : ((subtrees c).all fun (t : List Key × Cfg) => decide t.1.Nodup) = true) :
    ∀ p, HasPath c p → p.Nodup := by
  rintro p ⟨_, hp⟩
  obtain ⟨x, hx⟩ := Option.isSome_iff_exists.mp hp
  simpa using List.all_eq_true.mp h _ (mem_subtrees p c x hx)

/-- Not a list. -/
def notList : Cfg → Bool
  | .node true _ => false
  | _ => true

theorem listFree_of_check (c : Cfg) (h : ((subtrees c).all fun (t : List Key × Cfg) => notList t.2) = true) :
    ListFree c := by
  intro p es hp
  have := List.all_eq_true.mp h _ (mem_subtrees p c _ hp)
  simp [notList] at this

end GeNSIT
