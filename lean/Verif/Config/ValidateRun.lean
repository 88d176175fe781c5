import Verif.Config.Validate
import Verif.Config.Check
import Verif.Config.FindLemmas

/-!
# Validation visits the parameters one by one

Specification of the shape of a parameter file, and the equivalence of the recursive `validate` with a loop over the
parameters.
-/

namespace GeNSIT.Spec

open GeNSIT

/-- Shape of the parameter file `cfg_parameters.json`: no key occurs twice on a path; `sweep` is the only key of its
dictionary and holds `default` and `range`; the elements of lists are dictionaries of parameters. -/
structure ParamTree (c : Cfg) : Prop where
  wf : WellFormed c
  distinct : ∀ p, (readAt c p).isSome → p.Nodup
  sweeps : ∀ p v, readAt c (p ++ [.str "sweep"]) = some v →
    readAt c p = some (.node false [(.str "sweep", v)]) ∧
      ∃ a b, v = .node false [(.str "default", .leaf a), (.str "range", .leaf b)]
  elems : ∀ p es, readAt c p = some (.node true es) → ∀ e ∈ es, ∃ es', e.2 = .node false es' ∧ es'.lookup (.str "sweep") = none
  names : ∀ p es, readAt c p = some (.node false es) → ∀ e ∈ es, ∃ n, e.1 = .str n

/-- A parameter that takes a single value. -/
def IsPlain (c : Cfg) (p : List Key) : Prop := .str "sweep" ∉ p ∧ ∃ a, readAt c p = some (.leaf a)

/-- A parameter that can be swept. -/
def IsSwept (c : Cfg) (p : List Key) : Prop := (readAt c (p ++ [.str "sweep"])).isSome

end GeNSIT.Spec

namespace GeNSIT

open Spec

mutual
/-- The parameters of a parameter file with their positions; the flag marks the parameters that can be swept. -/
def paramsOf : Cfg → List (List Key × Bool)
  | .leaf _ => [([], false)]
  | .node _ es => if (es.lookup (.str "sweep")).isSome then [([], true)] else paramsOfEntries es

def paramsOfEntries : List (Key × Cfg) → List (List Key × Bool)
  | [] => []
  | e :: rest => paramsOfEntry e ++ paramsOfEntries rest

def paramsOfEntry : Key × Cfg → List (List Key × Bool)
  | (k, v) => (paramsOf v).map fun x => (k :: x.1, x.2)
end

/-- Validate one plain parameter. -/
def visitPlain (chk : ValueCheck) (sch : Cfg) (p : List Key) (st : VState) : Except VErr VState :=
  match leafCheck chk sch p false st with
  | .error e => .error e
  | .ok (st1, _) => .ok st1

/-- Validate one sweepable parameter. -/
def visitSwept (chk : ValueCheck) (sch : Cfg) (p : List Key) (st : VState) : Except VErr VState :=
  match leafCheck chk sch (p ++ [.str "sweep"]) true st with
  | .error e => .error e
  | .ok (st1, false) => .ok st1
  | .ok (st1, true) =>
    match visitPlain chk sch (p ++ [.str "sweep"] ++ [.str "default"]) st1 with
    | .error e => .error e
    | .ok st2 => visitPlain chk sch (p ++ [.str "sweep"] ++ [.str "range"]) st2

/-- Validate one parameter. -/
def visit (chk : ValueCheck) (sch : Cfg) (x : List Key × Bool) (st : VState) : Except VErr VState :=
  if x.2 then visitSwept chk sch x.1 st else visitPlain chk sch x.1 st

/-- Validate the parameters in order. -/
def visits (chk : ValueCheck) (sch : Cfg) : List (List Key × Bool) → VState → Except VErr VState
  | [], st => .ok st
  | x :: xs, st =>
    match visit chk sch x st with
    | .error e => .error e
    | .ok st' => visits chk sch xs st'

theorem visits_append (chk : ValueCheck) (sch : Cfg) (xs ys : List (List Key × Bool)) (st : VState) :
    visits chk sch (xs ++ ys) st = match visits chk sch xs st with
      | .error e => .error e
      | .ok st' => visits chk sch ys st' := by
  induction xs generalizing st with
  | nil => rfl
  | cons x xs ih =>
    simp only [List.cons_append, visits]
    cases visit chk sch x st with
    | error e => rfl
    | ok st' => simp only [ih]

theorem Spec.ParamTree.child {l : Bool} {es : List (Key × Cfg)} (h : ParamTree (.node l es)) {e : Key × Cfg} (he : e ∈ es) :
    ParamTree e.2 := by
  obtain ⟨k, v⟩ := e
  have hl : es.lookup k = some v := lookup_of_mem (h.wf [] l es rfl).1 he
  have hr : ∀ p, readAt (.node l es) (k :: p) = readAt v p := by
    intro p; simp only [readAt, hl]
  refine ⟨(wf_child h.wf he).2, ?_, ?_, ?_, ?_⟩
  · intro p hp
    have := h.distinct (k :: p) (by rw [hr]; exact hp)
    exact (List.nodup_cons.1 this).2
  · intro p w hw
    have := h.sweeps (k :: p) w (by rw [List.cons_append, hr]; exact hw)
    rw [hr] at this
    exact this
  · intro p es' hp
    exact h.elems (k :: p) es' (by rw [hr]; exact hp)
  · intro p es' hp
    exact h.names (k :: p) es' (by rw [hr]; exact hp)

/-- Adding a key at the end and removing it again. -/
theorem pushed {cur : List Key} {k : Key} (h : (cur ++ [k]).Nodup) : (cur ++ [k]).erase k = cur := erase_snoc h

/-- The positions of the parameters below a position. -/
def below (cur : List Key) (xs : List (List Key × Bool)) : List (List Key × Bool) := xs.map fun x => (cur ++ x.1, x.2)

theorem below_entry (cur : List Key) (k : Key) (v : Cfg) : below cur (paramsOfEntry (k, v)) = below (cur ++ [k]) (paramsOf v) := by
  simp [below, paramsOfEntry, Function.comp_def]

theorem sweep_node {es : List (Key × Cfg)} {l : Bool} (h : ParamTree (.node l es)) (hs : (es.lookup (.str "sweep")).isSome) :
    ∃ a b, l = false ∧ es = [(.str "sweep", .node false [(.str "default", .leaf a), (.str "range", .leaf b)])] := by
  cases hv : es.lookup (.str "sweep") with
  | none => rw [hv] at hs; cases hs
  | some v =>
    have hr : readAt (.node l es) ([] ++ [.str "sweep"]) = some v := by simp [readAt, hv]
    obtain ⟨h1, a, b, h2⟩ := h.sweeps [] v hr
    simp only [readAt, Option.some.injEq, Cfg.node.injEq] at h1
    exact ⟨a, b, h1.1, by rw [h1.2, h2]⟩

/-- Result of a validation that restores the key path. -/
def keep (cur : List Key) : Except VErr VState → Except VErr (List Key × VState)
  | .error e => .error e
  | .ok st => .ok (cur, st)

theorem nodup_step {cur p : List Key} {k : Key} (h : (cur ++ k :: p).Nodup) : (cur ++ [k] ++ p).Nodup := by simpa using h

mutual
theorem run_cfg (chk : ValueCheck) (sch : Cfg) : ∀ (c : Cfg) (cur : List Key) (st : VState), ParamTree c →
    (∀ p, (readAt c p).isSome → (cur ++ p).Nodup) → (∃ l es, c = .node l es ∧ es.lookup (.str "sweep") = none) →
    validateCfg chk sch c cur st = keep cur (visits chk sch (below cur (paramsOf c)) st)
  | .leaf a, cur, st, _, _, h => by obtain ⟨l, es, h, _⟩ := h; cases h
  | .node l es, cur, st, ht, hn, h => by
    obtain ⟨l', es', h, hs⟩ := h
    cases h
    rw [validateCfg, paramsOf, hs]
    exact run_entries chk sch es cur st (fun e he => ht.child he)
      (fun e he p hp => hn (e.1 :: p) (by
        simp only [readAt, lookup_of_mem (ht.wf [] l es rfl).1 (show (e.1, e.2) ∈ es from he)]; exact hp))
      (fun e he heq => by
        have h1 : (es.lookup (.str "sweep")).isSome := (lookup_isSome_iff es _).2 (heq ▸ List.mem_map_of_mem he)
        rw [hs] at h1; cases h1)

theorem run_entries (chk : ValueCheck) (sch : Cfg) : ∀ (es : List (Key × Cfg)) (cur : List Key) (st : VState),
    (∀ e ∈ es, ParamTree e.2) → (∀ e ∈ es, ∀ p, (readAt e.2 p).isSome → (cur ++ e.1 :: p).Nodup) →
    (∀ e ∈ es, e.1 ≠ .str "sweep") →
    validateEntries chk sch es cur st = keep cur (visits chk sch (below cur (paramsOfEntries es)) st)
  | [], cur, st, _, _, _ => rfl
  | e :: rest, cur, st, ht, hn, hs => by
    rw [validateEntries, paramsOfEntries, below, List.map_append, ← below, ← below, visits_append,
      run_entry chk sch e cur st (ht e (by simp)) (hn e (by simp)) (hs e (by simp))]
    cases visits chk sch (below cur (paramsOfEntry e)) st with
    | error e => rfl
    | ok st' =>
      exact run_entries chk sch rest cur st' (fun e he => ht e (by simp [he])) (fun e he => hn e (by simp [he]))
        (fun e he => hs e (by simp [he]))

theorem run_entry (chk : ValueCheck) (sch : Cfg) : ∀ (e : Key × Cfg) (cur : List Key) (st : VState),
    ParamTree e.2 → (∀ p, (readAt e.2 p).isSome → (cur ++ e.1 :: p).Nodup) → e.1 ≠ .str "sweep" →
    validateEntry chk sch e cur st = keep cur (visits chk sch (below cur (paramsOfEntry e)) st)
  | (k, .leaf a), cur, st, ht, hn, hs => by
    have h0 := pushed (hn [] rfl)
    rw [below_entry, paramsOf]
    simp only [validateEntry, below, List.map_cons, List.map_nil, visits, visit, List.append_nil, Bool.false_eq_true, if_false,
      visitPlain, h0]
    cases leafCheck chk sch (cur ++ [k]) false st with
    | error e => rfl
    | ok r => rfl
  | (k, .node true es), cur, st, ht, hn, hs => by
    have h0 := pushed (hn [] rfl)
    have hns : es.lookup (.str "sweep") = none := by
      cases h : es.lookup (.str "sweep") with
      | none => rfl
      | some v =>
        obtain ⟨a, b, h1, _⟩ := sweep_node ht (by rw [h]; rfl)
        cases h1
    rw [below_entry, paramsOf, hns]
    rw [validateEntry, run_elems chk sch es (cur ++ [k]) st (fun e he => ht.child he)
      (fun e he p hp => nodup_step (hn (e.1 :: p) (by
        simp only [readAt, lookup_of_mem (ht.wf [] true es rfl).1 (show (e.1, e.2) ∈ es from he)]; exact hp)))
      (fun e he => ht.elems [] es rfl e he)]
    simp only [Option.isSome_none, Bool.false_eq_true, if_false]
    cases visits chk sch (below (cur ++ [k]) (paramsOfEntries es)) st with
    | error e => rfl
    | ok st' => simp only [keep, h0]
  | (k, .node false es), cur, st, ht, hn, hs => by
    have h0 := pushed (hn [] rfl)
    rw [below_entry, paramsOf, validateEntry, if_pos hs]
    by_cases hsw : (es.lookup (.str "sweep")).isSome
    · rw [if_pos hsw]
      obtain ⟨a, b, _, rfl⟩ := sweep_node ht hsw
      have h1 : (cur ++ [k] ++ [Key.str "sweep"]).erase (Key.str "sweep") = cur ++ [k] :=
        pushed (by simpa using hn [.str "sweep"] rfl)
      have h2 : (cur ++ [k] ++ [Key.str "sweep"] ++ [Key.str "default"]).erase (Key.str "default") = cur ++ [k] ++ [.str "sweep"] :=
        pushed (by simpa using hn [.str "sweep", .str "default"] rfl)
      have h3 : (cur ++ [k] ++ [Key.str "sweep"] ++ [Key.str "range"]).erase (Key.str "range") = cur ++ [k] ++ [.str "sweep"] :=
        pushed (by simpa using hn [.str "sweep", .str "range"] rfl)
      simp only [validateEntries, validateEntry, ne_eq, not_true_eq_false, if_false, below, List.map_cons, List.map_nil, visits,
        visit, if_true, visitSwept, List.append_nil, visitPlain, h1]
      cases leafCheck chk sch (cur ++ [k] ++ [.str "sweep"]) true st with
      | error e => rfl
      | ok r =>
        obtain ⟨st1, fl⟩ := r
        cases fl with
        | false => simp only [h0, keep]
        | true =>
          simp only [h2]
          cases leafCheck chk sch (cur ++ [k] ++ [.str "sweep"] ++ [.str "default"]) false st1 with
          | error e => rfl
          | ok r2 =>
            simp only [h3]
            cases leafCheck chk sch (cur ++ [k] ++ [.str "sweep"] ++ [.str "range"]) false r2.1 with
            | error e => rfl
            | ok r3 => simp only [h1, h0, keep]
    · rw [if_neg hsw]
      rw [run_entries chk sch es (cur ++ [k]) st (fun e he => ht.child he)
        (fun e he p hp => nodup_step (hn (e.1 :: p) (by
          simp only [readAt, lookup_of_mem (ht.wf [] false es rfl).1 (show (e.1, e.2) ∈ es from he)]; exact hp)))
        (fun e he heq => hsw ((lookup_isSome_iff es _).2 (heq ▸ List.mem_map_of_mem he)))]
      cases visits chk sch (below (cur ++ [k]) (paramsOfEntries es)) st with
      | error e => rfl
      | ok st' => simp only [keep, h0]

theorem run_elems (chk : ValueCheck) (sch : Cfg) : ∀ (es : List (Key × Cfg)) (cur : List Key) (st : VState),
    (∀ e ∈ es, ParamTree e.2) → (∀ e ∈ es, ∀ p, (readAt e.2 p).isSome → (cur ++ e.1 :: p).Nodup) →
    (∀ e ∈ es, ∃ es', e.2 = .node false es' ∧ es'.lookup (.str "sweep") = none) →
    validateElems chk sch es cur st = keep cur (visits chk sch (below cur (paramsOfEntries es)) st)
  | [], cur, st, _, _, _ => rfl
  | e :: rest, cur, st, ht, hn, hs => by
    rw [validateElems, paramsOfEntries, below, List.map_append, ← below, ← below, visits_append,
      run_elem chk sch e cur st (ht e (by simp)) (hn e (by simp)) (hs e (by simp))]
    cases visits chk sch (below cur (paramsOfEntry e)) st with
    | error e => rfl
    | ok st' =>
      exact run_elems chk sch rest cur st' (fun e he => ht e (by simp [he])) (fun e he => hn e (by simp [he]))
        (fun e he => hs e (by simp [he]))

theorem run_elem (chk : ValueCheck) (sch : Cfg) : ∀ (e : Key × Cfg) (cur : List Key) (st : VState),
    ParamTree e.2 → (∀ p, (readAt e.2 p).isSome → (cur ++ e.1 :: p).Nodup) →
    (∃ es', e.2 = .node false es' ∧ es'.lookup (.str "sweep") = none) →
    validateElem chk sch e cur st = keep cur (visits chk sch (below cur (paramsOfEntry e)) st)
  | (k, v), cur, st, ht, hn, hs => by
    have h0 := pushed (hn [] (by rw [readAt_nil]; rfl))
    rw [below_entry, validateElem, run_cfg chk sch v (cur ++ [k]) st ht (fun p hp => nodup_step (hn p hp)) (by
      obtain ⟨es', h1, h2⟩ := hs; exact ⟨false, es', h1, h2⟩)]
    cases visits chk sch (below (cur ++ [k]) (paramsOf v)) st with
    | error e => rfl
    | ok st' => simp only [keep, h0]
end

end GeNSIT
