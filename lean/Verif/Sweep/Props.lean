import Verif.Sweep.MoreLemmas
import Verif.Config.Check
import Mathlib.Tactic.NormNum
import Mathlib.Tactic.Positivity

/-!
# Properties of parameter sweeps: C35 – C40, C62
-/

set_option linter.unusedSimpArgs false
set_option linter.unusedVariables false

namespace GeNSIT

open Spec

/-! ## C35 -/

/-- When the configurations are computed (no duplicates reported): they are distinct; they are exactly the choices of one
value per isolated sweep and one row per coupled group (rows that print differently, lists of equal length); their number
is the product of the sizes. -/
theorem C35_product {V : Type} (str : V → List Char) (iso : List (List V)) (coup : List (List (List V))) (cs : List (List V))
    (sizes : List Nat) (hne : iso ≠ [] ∨ coup ≠ []) (hlen : List.Forall₂ SameLength coup sizes)
    (hprint : ∀ lists ∈ coup, ∀ i j r r', RowAt lists i r → RowAt lists j r' → rowString str r = rowString str r' → i = j)
    (h : sweepConfigs str (iso.map fun l => l.map PVal.item) coup = some cs) :
    cs.Nodup ∧
    (∀ c, c ∈ cs ↔ ∃ xs rows, List.Forall₂ (· ∈ ·) xs iso ∧ List.Forall₂ (fun r lists => ∃ i, RowAt lists i r) rows coup ∧
      c = xs ++ rows.flatten) ∧
    cs.length = (iso.map List.length).prod * sizes.prod := by
  obtain ⟨ex, h1, h2, h3⟩ := sweepConfigs_eq str iso coup hne
  obtain ⟨rfl, hnd⟩ := (h1 cs).mp h
  -- all rows are kept
  have hall : ∀ lists ∈ coup, uniqueRows str (zipRows lists) = zipRows lists := by
    intro lists hl
    apply uniqueRows_all
    rw [List.nodup_iff_injective_getElem]
    intro a b hab
    simp only [List.getElem_map] at hab
    have hrow : ∀ (k : Nat) (hk : k < (zipRows lists).length), RowAt lists k (zipRows lists)[k] := by
      intro k hk
      -- the k-th row is a row at some index; indices are determined by position
      have key : ∀ (ls : List (List V)) (k : Nat) (h : k < (zipRows ls).length), RowAt ls k (zipRows ls)[k] := by
        intro ls
        induction ls with
        | nil => intro i h; simp [zipRows] at h
        | cons l ls ih =>
          intro i h
          cases ls with
          | nil =>
            simp only [zipRows, List.length_map] at h
            simp [zipRows, RowAt, h]
          | cons l' ls =>
            simp only [zipRows, List.length_zipWith, lt_min_iff] at h
            refine ⟨by simp, ?_⟩
            simp only [zipRows, List.getElem_zipWith, List.map_cons]
            have := (ih i h.2).2
            simp only [List.map_cons] at this
            rw [← this]
            simp [h.1]
      exact key lists k hk
    have ha : a.1 < (zipRows lists).length := by simpa using a.2
    have hb : b.1 < (zipRows lists).length := by simpa using b.2
    exact Fin.ext (hprint lists hl a.1 b.1 _ _ (hrow a.1 ha) (hrow b.1 hb) hab)
  refine ⟨hnd.of_map, ?_, ?_⟩
  · intro c
    rw [h2 c]
    constructor
    · rintro ⟨xs, rows, g1, g2, g3⟩
      refine ⟨xs, rows, g1, ?_, g3⟩
      clear g1 g3 h1 h2 h3 h hlen hnd hne
      induction g2 with
      | nil => exact List.Forall₂.nil
      | cons a b ih =>
        refine List.Forall₂.cons ?_ (ih (fun l hl => hprint l (by simp [hl])) (fun l hl => hall l (by simp [hl])))
        rw [hall _ (by simp)] at a
        exact (mem_zipRows _ _).mp a
    · rintro ⟨xs, rows, g1, g2, g3⟩
      refine ⟨xs, rows, g1, ?_, g3⟩
      clear g1 g3 h1 h2 h3 h hlen hnd hne
      induction g2 with
      | nil => exact List.Forall₂.nil
      | cons a b ih =>
        refine List.Forall₂.cons ?_ (ih (fun l hl => hprint l (by simp [hl])) (fun l hl => hall l (by simp [hl])))
        rw [hall _ (by simp)]
        exact (mem_zipRows _ _).mpr a
  · rw [h3]
    congr 1
    clear h1 h2 h3 h hnd hne
    induction hlen with
    | nil => rfl
    | cons a b ih =>
      simp only [List.map_cons, List.prod_cons]
      rw [ih (fun l hl => hprint l (by simp [hl])) (fun l hl => hall l (by simp [hl])), hall _ (by simp), length_zipRows _ _ a]

/-- Printing of numbers as digits, for the example. -/
private def tally (n : Nat) : List Char := List.replicate n 'I'

example : sweepConfigs tally ([[1, 2], [3]].map fun l => l.map PVal.item) [[[4, 5], [6, 7]]] =
    some [[1, 3, 4, 6], [1, 3, 5, 7], [2, 3, 4, 6], [2, 3, 5, 7]] := by decide +kernel

/-- Printed duplicates are reported, whatever the sweeps: a returned list never prints two configurations alike. -/
theorem C35_no_duplicates {V : Type} (str : V → List Char) (iso : List (List (PVal V))) (coup : List (List (List V)))
    (cs : List (List V)) (h : sweepConfigs str iso coup = some cs) : (cs.map (rowString str)).Nodup := by
  unfold sweepConfigs at h
  simp only at h
  rw [Option.ite_none_right_eq_some] at h
  obtain ⟨hn, he⟩ := h
  rw [Option.some.injEq] at he
  rw [← he]; exact hn

/-- In general the rows kept from a coupled group are rows of the group, print differently, and every row prints like a
kept one. -/
theorem C35_rows_kept {V : Type} (str : V → List Char) (lists : List (List V)) :
    (uniqueRows str (zipRows lists)).Sublist (zipRows lists) ∧
    ((uniqueRows str (zipRows lists)).map (rowString str)).Nodup ∧
    ∀ i r, RowAt lists i r → ∃ r' ∈ uniqueRows str (zipRows lists), rowString str r' = rowString str r :=
  ⟨uniqueRows_sublist _ _, uniqueRows_strings_nodup _ _,
    fun i r h => uniqueRows_represent str _ ((mem_zipRows lists r).mpr ⟨i, h⟩)⟩

/-- Tuple-valued sweeps lose their boundaries: two isolated sweeps, one with tuple values, give configurations longer than
the number of parameters, so positions no longer match parameters. -/
theorem C35_tuple_values_misaligned :
    sweepConfigs tally [[PVal.tup [.item 1, .item 2]], [PVal.item 3]] [] = some [[1, 2, 3]] := by decide +kernel

/-! ## C36 -/

/-- The settings built for a configuration hold the configuration's values at the parameters' paths, `sweep_mode` is off,
`export_samples` is on, and every path unrelated to these is as in the base settings; the sweep dictionary maps each
parameter to its value. -/
theorem C36_experiment_config (es : List (Key × Cfg)) (ps : List SweepParam) (vs : List Cfg) (hlen : ps.length = vs.length)
    (hw : ∀ p ∈ ps, Writable (.node false es) p.path)
    (hrel : ps.Pairwise fun a b => Unrelated a.path b.path)
    (hflags : ∀ p ∈ ps, p.path.head? ≠ some (.str "sweep_mode") ∧ p.path.head? ≠ some (.str "export_samples"))
    (hvars : (ps.map SweepParam.var).Nodup) :
    ∃ s' sweep, experimentConfig (.node false es) ps vs = some (s', sweep) ∧
      (∀ i (h : i < ps.length), readAt s' ps[i].path = vs[i]? ∧ sweep.lookup ps[i].var = vs[i]?) ∧
      readAt s' [.str "sweep_mode"] = some (.leaf (.bool false)) ∧
      readAt s' [.str "export_samples"] = some (.leaf (.bool true)) ∧
      ∀ q, (∀ p ∈ ps, Unrelated p.path q) → q.head? ≠ some (.str "sweep_mode") → q.head? ≠ some (.str "export_samples") →
        q ≠ [] → readAt s' q = readAt (.node false es) q := by
  have hother : ∀ q : List Key, q ≠ [] → q.head? ≠ some (.str "sweep_mode") → q.head? ≠ some (.str "export_samples") →
      readAt (.node false (setEntry (setEntry es (.str "sweep_mode") (.leaf (.bool false))) (.str "export_samples")
        (.leaf (.bool true)))) q = readAt (.node false es) q := by
    intro q hne h1 h2
    cases q with
    | nil => exact absurd rfl hne
    | cons k q =>
      have h1' : k ≠ .str "sweep_mode" := fun e => h1 (by simp [e])
      have h2' : k ≠ .str "export_samples" := fun e => h2 (by simp [e])
      simp only [readAt, lookup_setEntry_ne _ _ h2', lookup_setEntry_ne _ _ h1']
  have hw2 : ∀ p ∈ ps, Writable (.node false (setEntry (setEntry es (.str "sweep_mode") (.leaf (.bool false)))
      (.str "export_samples") (.leaf (.bool true)))) p.path := by
    intro p hp
    refine ⟨(hw p hp).1, ?_⟩
    intro q hq
    cases q with
    | nil => exact ⟨_, rfl⟩
    | cons k q =>
      have hk : p.path.head? = some k := by
        obtain ⟨t, ht⟩ := hq.trans (List.dropLast_prefix p.path)
        rw [← ht]; rfl
      rw [hother (k :: q) (by simp) (by simpa [hk] using (hflags p hp).1) (by simpa [hk] using (hflags p hp).2)]
      exact (hw p hp).2 _ hq
  obtain ⟨s', g1, g2, g3⟩ := applySweep_spec ps vs _ (by omega) hw2 hrel
  have hunrel : ∀ (f : String), (∀ p ∈ ps, p.path.head? ≠ some (.str f)) → ∀ p ∈ ps, Unrelated p.path [.str f] := by
    intro f hf p hp
    have hne := (hw p hp).1
    constructor
    · rintro ⟨t, ht⟩
      cases hpp : p.path with
      | nil => exact hne hpp
      | cons k r =>
        rw [hpp] at ht
        simp only [List.cons_append, List.cons.injEq] at ht
        exact hf p hp (by rw [hpp, ht.1]; rfl)
    · rintro ⟨t, ht⟩
      exact hf p hp (by rw [← ht]; rfl)
  refine ⟨s', sweepDict ps vs, by simp [experimentConfig, Cfg.setItem, g1], ?_, ?_, ?_, ?_⟩
  · intro i hi
    refine ⟨g2 i hi, ?_⟩
    rw [sweepDict_lookup ps vs hvars i hi (by omega), List.getElem?_eq_getElem (by omega)]
  · rw [g3 _ (hunrel _ fun p hp => (hflags p hp).1)]
    rw [readAt, lookup_setEntry_ne _ _ (by decide), lookup_setEntry_self]; rfl
  · rw [g3 _ (hunrel _ fun p hp => (hflags p hp).2)]
    rw [readAt, lookup_setEntry_self]; rfl
  · intro q hq h1 h2 hne
    rw [g3 q hq, hother q hne h1 h2]

/-- A base configuration with one swept parameter below `a` and one at the top. -/
private abbrev base : List (Key × Cfg) := [(.str "a", .node false [(.str "x", .leaf (.num 1)), (.str "y", .leaf (.num 2))]),
  (.str "b", .leaf (.num 3))]

example : (experimentConfig (.node false base) [⟨.str "x", [.str "a", .str "x"]⟩, ⟨.str "b", [.str "b"]⟩]
    [.leaf (.num 7), .leaf (.num 8)]).map (fun r => (readAt r.1 [.str "a", .str "x"], readAt r.1 [.str "a", .str "y"],
      readAt r.1 [.str "b"])) = some (some (.leaf (.num 7)), some (.leaf (.num 2)), some (.leaf (.num 8))) := rfl

/-! ## C37 -/

/-- If the target names differ already before their first underscore, the id does not depend on the iteration order of the
set of names. -/
theorem C37_order_independent_partial (strf : SVal → List Char) (val : List Char → SVal) (targets targets' : List (List Char))
    (hp : targets.Perm targets') (hseg : (targets.map segment).Nodup) :
    sweepId strf targets val = sweepId strf targets' val := by
  unfold sweepId
  simp only
  congr 1
  have hperm : ((targets.filter fun v => decide (v ≠ "dataset".toList)).map (idComponent strf val)).Perm
      ((targets'.filter fun v => decide (v ≠ "dataset".toList)).map (idComponent strf val)) := (hp.filter _).map _
  refine List.Perm.eq_of_pairwise (le := fun a b => segment a ≤ segment b) ?_
    (List.pairwise_insertionSort _ _) (List.pairwise_insertionSort _ _)
    (((List.perm_insertionSort _ _).trans hperm).trans (List.perm_insertionSort _ _).symm)
  intro a b ha hb hab hba
  rw [List.mem_insertionSort] at ha hb
  obtain ⟨v, hv, rfl⟩ := List.mem_map.mp ha
  obtain ⟨w, hw, rfl⟩ := List.mem_map.mp hb
  have hs : segment v = segment w := by
    have := le_antisymm hab hba
    unfold idComponent at this
    rwa [segment_append, segment_append] at this
  have hv' := (List.mem_filter.mp hv).1
  have hw' := hp.mem_iff.mpr (List.mem_filter.mp hw).1
  rw [List.inj_on_of_nodup_map hseg hv' hw' hs]

example : ([['a'], ['s', 'i', 'g'], ['b', '_', 'x']].map segment).Nodup := by decide +kernel

/-- Otherwise it does: the same sweep gets two different ids, so a resumed or parallel run may not find its folder. -/
theorem C37_order_dependent :
    let strf : SVal → List Char := fun x => match x with | .other s => s | _ => []
    let val : List Char → SVal := fun v => if v = "a_x".toList then .other ['1'] else .other ['2']
    sweepId strf ["a_x".toList, "a_y".toList] val ≠ sweepId strf ["a_y".toList, "a_x".toList] val := by decide +kernel

/-- Two sweeps that print differently at some target other than `dataset` and `sigma` get different ids, if no printed
component contains `/`. -/
theorem C37_distinct_ids_partial (strf : SVal → List Char) (val val' : List Char → SVal) (targets : List (List Char))
    (hseg : (targets.map segment).Nodup)
    (hslash : ∀ v ∈ targets, '/' ∉ idComponent strf val v ∧ '/' ∉ idComponent strf val' v)
    (v : List Char) (hv : v ∈ targets) (hd : v ≠ "dataset".toList) (hs : v ≠ "sigma".toList)
    (hdiff : strf (val v) ≠ strf (val' v)) : sweepId strf targets val ≠ sweepId strf targets val' := by
  intro heq
  unfold sweepId at heq
  simp only at heq
  have hsort := intercalate_inj _ _ (by simp [List.length_insertionSort])
    (by
      intro x hx
      rw [List.mem_insertionSort] at hx
      obtain ⟨w, hw, rfl⟩ := List.mem_map.mp hx
      exact (hslash w (List.mem_filter.mp hw).1).1)
    (by
      intro x hx
      rw [List.mem_insertionSort] at hx
      obtain ⟨w, hw, rfl⟩ := List.mem_map.mp hx
      exact (hslash w (List.mem_filter.mp hw).1).2) heq
  have hmem : idComponent strf val v ∈ ((targets.filter fun v => decide (v ≠ "dataset".toList)).map
      (idComponent strf val)).insertionSort fun (a b : List Char) => segment a ≤ segment b := by
    rw [List.mem_insertionSort]
    exact List.mem_map.mpr ⟨v, List.mem_filter.mpr ⟨hv, decide_eq_true hd⟩, rfl⟩
  rw [hsort, List.mem_insertionSort] at hmem
  obtain ⟨w, hw, hww⟩ := List.mem_map.mp hmem
  have hseg2 : segment w = segment v := by
    have := congrArg segment hww
    unfold idComponent at this
    rwa [segment_append, segment_append] at this
  have : w = v := List.inj_on_of_nodup_map hseg (List.mem_filter.mp hw).1 hv hseg2
  subst this
  unfold idComponent at hww
  rw [if_neg hs, if_neg hs, List.append_cancel_left_eq, List.cons.injEq] at hww
  exact hdiff hww.2.symm

/-- For `sigma` only the regime is recorded: sigma 0.1 and 0.2 collide. -/
theorem C37_sigma_collides (strf : SVal → List Char) :
    sweepId strf ["sigma".toList] (fun _ => .num (1 / 10)) = sweepId strf ["sigma".toList] (fun _ => .num (2 / 10)) := by
  have h1 : noiseRegime (.num (1 / 10)) = "high".toList := by
    simp only [noiseRegime]
    rw [if_neg (by norm_num), if_neg (by norm_num), if_pos (by norm_num)]
  have h2 : noiseRegime (.num (2 / 10)) = "high".toList := by
    simp only [noiseRegime]
    rw [if_neg (by norm_num), if_neg (by norm_num), if_pos (by norm_num)]
  unfold sweepId
  simp only
  congr 2
  apply List.map_congr_left
  intro v hv
  have hv' : v = "sigma".toList := List.mem_singleton.mp (List.mem_filter.mp hv).1
  unfold idComponent
  rw [if_pos hv', if_pos hv', h1, h2]

/-- `dataset` is not recorded at all. -/
theorem C37_dataset_not_recorded (strf : SVal → List Char) (a b : SVal) :
    sweepId strf ["dataset".toList] (fun _ => a) = sweepId strf ["dataset".toList] (fun _ => b) := by
  simp [sweepId]

/-! ## C38 -/

/-- If the coupled parameters have different last path components, parsing succeeds exactly when all value lists have the
same length. -/
theorem C38_lengths_checked_partial {V : Type} (params : List (CoupledParam V))
    (hkeys : (params.map fun c => c.path.getLast?).Nodup) :
    lensOk params = true ↔ ∃ n, SameLength (params.map CoupledParam.values) n := by
  unfold lensOk valLens
  rw [beq_iff_eq, eraseDups_length_one, valLens_aux params [] hkeys (by simp)]
  simp only [List.append_nil, List.map_reverse, List.map_map, ne_eq, List.reverse_eq_nil_iff, List.map_eq_nil_iff,
    List.mem_reverse, List.mem_map, Function.comp, forall_exists_index, and_imp, forall_apply_eq_imp_iff₂, SameLength]

example : lensOk [CoupledParam.mk [.str "a"] [1, 2], CoupledParam.mk [.str "b"] [3, 4]] = true ∧
    lensOk [CoupledParam.mk [.str "a"] [1, 2], CoupledParam.mk [.str "b"] [3]] = false := by decide +kernel

/-- In any case equal lengths are accepted. -/
theorem C38_equal_lengths_accepted {V : Type} (params : List (CoupledParam V)) (n : Nat)
    (h : SameLength (params.map CoupledParam.values) n) : lensOk params = true := by
  unfold lensOk
  rw [beq_iff_eq, eraseDups_length_one]
  refine ⟨n, ?_, ?_⟩
  · simpa using valLens_ne_nil params (by simpa using h.1)
  · intro x hx
    obtain ⟨e, he, rfl⟩ := List.mem_map.mp hx
    exact valLens_mem params [] n (fun c hc => h.2 _ (List.mem_map.mpr ⟨c, hc, rfl⟩)) (by simp) e he

/-- The full statement is false: two file parameters share the last path component `'file'`, the later length replaces the
earlier one, the check passes, and the rows are truncated to the shorter list. -/
theorem C38_files_not_checked :
    let params : List (CoupledParam Nat) := [⟨[.str "inputs", .str "x", .str "file"], [1, 2, 3]⟩,
      ⟨[.str "inputs", .str "y", .str "file"], [4, 5]⟩]
    lensOk params = true ∧ zipRows (params.map CoupledParam.values) = [[1, 4], [2, 5]] := by decide +kernel

/-! ## C39 -/

/-- Every swept dimension is in exactly one of the two parts; both parts are sorted and free of repetitions; neither the
order of `group_by` nor repetitions in it matter. -/
theorem C39_partition (d : SweepDims) (groupBy : List String) :
    (∀ v, v ∈ d.isolated ∨ v ∈ d.coupled.flatMap Prod.snd →
      ((v ∈ (d.groupId groupBy).1 ∨ v ∈ (d.groupId groupBy).2) ∧ ¬ (v ∈ (d.groupId groupBy).1 ∧ v ∈ (d.groupId groupBy).2))) ∧
    (d.groupId groupBy).1.Nodup ∧ (d.groupId groupBy).2.Nodup ∧
    (d.groupId groupBy).1.Pairwise (· ≤ ·) ∧ (d.groupId groupBy).2.Pairwise (· ≤ ·) ∧
    (∀ groupBy' : List String, (∀ v, v ∈ groupBy ↔ v ∈ groupBy') → d.groupId groupBy = d.groupId groupBy') := by
  have hmem1 : ∀ g v, v ∈ (d.groupId g).1 ↔ v ∈ d.nonshared g := by
    intro g v; simp [SweepDims.groupId, List.mem_insertionSort]
  have hmem2 : ∀ g v, v ∈ (d.groupId g).2 ↔ v ∈ d.shared g := by
    intro g v; simp [SweepDims.groupId, List.mem_insertionSort]
  refine ⟨?_, ?_, ?_, ?_, ?_, ?_⟩
  · intro v hv
    rw [hmem1, hmem2]
    unfold SweepDims.shared
    simp only [List.mem_filter, List.mem_append, decide_eq_true_eq]
    constructor
    · by_cases h : v ∈ d.nonshared groupBy
      · exact Or.inl h
      · exact Or.inr ⟨hv, h⟩
    · rintro ⟨h1, _, h2⟩; exact h2 h1
  · exact (List.perm_insertionSort _ _).nodup_iff.mpr (List.nodup_dedup _)
  · exact (List.perm_insertionSort _ _).nodup_iff.mpr (List.nodup_dedup _)
  · exact List.pairwise_insertionSort _ _
  · exact List.pairwise_insertionSort _ _
  · intro g' hg
    have hns : ∀ v, v ∈ d.nonshared groupBy ↔ v ∈ d.nonshared g' := by
      intro v
      unfold SweepDims.nonshared
      simp only [List.mem_flatMap, List.mem_append, hg]
    have hsh : ∀ v, v ∈ d.shared groupBy ↔ v ∈ d.shared g' := by
      intro v
      unfold SweepDims.shared
      simp only [List.mem_filter, decide_eq_true_eq, hns]
    have heq : ∀ a b : List String, (∀ v, v ∈ a ↔ v ∈ b) →
        a.dedup.insertionSort (fun (x y : String) => x ≤ y) = b.dedup.insertionSort (fun (x y : String) => x ≤ y) := by
      intro a b hab
      refine List.Perm.eq_of_pairwise (le := fun (x y : String) => x ≤ y) (fun x y _ _ h1 h2 => String.le_antisymm h1 h2)
        (List.pairwise_insertionSort _ _) (List.pairwise_insertionSort _ _) ?_
      refine (List.perm_insertionSort _ _).trans (List.Perm.trans ?_ (List.perm_insertionSort _ _).symm)
      rw [List.perm_ext_iff_of_nodup (List.nodup_dedup _) (List.nodup_dedup _)]
      intro v; simp [hab]
    unfold SweepDims.groupId
    rw [heq _ _ hns, heq _ _ hsh]

/-- Grouping by an isolated parameter or by a target name makes it, and all parameters coupled to it, non-shared. -/
theorem C39_group_by_respected_partial (d : SweepDims) (groupBy : List String) (v : String) (hv : v ∈ groupBy) :
    (v ∈ d.isolated → v ∈ (d.groupId groupBy).1) ∧
    (∀ vars, d.coupled.lookup v = some vars → v ∈ (d.groupId groupBy).1 ∧ ∀ w ∈ vars, w ∈ (d.groupId groupBy).1) := by
  have hmem1 : ∀ w, w ∈ d.adds v → w ∈ (d.groupId groupBy).1 := by
    intro w hw
    simp only [SweepDims.groupId, List.mem_insertionSort, List.mem_dedup]
    unfold SweepDims.nonshared
    exact List.mem_flatMap.mpr ⟨v, List.mem_append.mpr (Or.inl hv), hw⟩
  constructor
  · intro hi
    apply hmem1
    unfold SweepDims.adds
    simp [hi]
  · intro vars hl
    have hk : v ∈ d.coupled.map Prod.fst := by
      have : ∀ (l : List (String × List String)), l.lookup v = some vars → v ∈ l.map Prod.fst := by
        intro l
        induction l with
        | nil => intro h; simp at h
        | cons e l ih =>
          obtain ⟨k, x⟩ := e
          intro h
          by_cases hk : v = k
          · simp [hk]
          · have : (v == k) = false := by simpa using hk
            simp only [List.lookup, this] at h
            have := ih h
            simp only [List.map_cons, List.mem_cons]
            exact Or.inr this
      exact this _ hl
    have hadds : ∀ w, w = v ∨ w ∈ vars → w ∈ d.adds v := by
      intro w hw
      unfold SweepDims.adds
      simp only [List.mem_append]
      left; right
      rw [if_pos hk, hl]
      simpa using hw
    exact ⟨hmem1 v (hadds v (Or.inl rfl)), fun w hw => hmem1 w (hadds w (Or.inr hw))⟩

/-- Grouping by a coupled parameter that is not the target name has no effect, although the code announces otherwise
(`config.py:597-600`): the parameter ends up shared. -/
theorem C39_coupled_group_by_ignored :
    let d : SweepDims := ⟨[], [("seed", ["seed", "alpha_range"])]⟩
    "alpha_range" ∉ (d.groupId ["alpha_range"]).1 ∧ "alpha_range" ∈ (d.groupId ["alpha_range"]).2 := by
  have hns : (SweepDims.mk [] [("seed", ["seed", "alpha_range"])]).nonshared ["alpha_range"] = [] := by decide +kernel
  constructor
  · simp [SweepDims.groupId, hns]
  · simp [SweepDims.groupId, SweepDims.shared, hns, List.mem_insertionSort]

/-! ## C40 -/

/-- The result is the sub-list of the configurations whose every remaining coordinate is equal to the requested one or,
for numbers, within ten percent of it. -/
theorem C40_slice_filters_partial (names groupBy : List String) (sweep : String → Option SVal) (confs r : List (List SVal))
    (h : sliceConfigs names groupBy sweep confs = some r) :
    r.Sublist confs ∧ ∀ conf ∈ confs, (conf ∈ r ↔ ∀ e ∈ names.zip conf, e.1 ∉ groupBy → ∃ v, sweep e.1 = some v ∧ Near e.2 v) := by
  have hmatch : ∀ conf : List SVal, allMatch sweep ((names.zip conf).filter fun (e : String × SVal) => decide (e.1 ∉ groupBy)) =
      some true ↔ ∀ e ∈ names.zip conf, e.1 ∉ groupBy → ∃ v, sweep e.1 = some v ∧ Near e.2 v := by
    intro conf
    rw [allMatch_true]
    simp only [List.mem_filter, decide_eq_true_eq, and_imp]
    constructor
    · intro h e he hg
      obtain ⟨v, h1, h2⟩ := h e he hg
      exact ⟨v, h1, coordMatch_near h2⟩
    · intro h e he hg
      obtain ⟨v, h1, h2⟩ := h e he hg
      exact ⟨v, h1, near_coordMatch h2⟩
  have hfilter : ∀ (confs r : List (List SVal)), sliceConfigs names groupBy sweep confs = some r →
      r = confs.filter fun conf => decide (allMatch sweep ((names.zip conf).filter fun (e : String × SVal) =>
        decide (e.1 ∉ groupBy)) = some true) := by
    intro confs
    induction confs with
    | nil => intro r h; simp only [sliceConfigs, Option.some.injEq] at h; simp [← h]
    | cons conf confs ih =>
      intro r h
      simp only [sliceConfigs] at h
      cases ha : allMatch sweep ((names.zip conf).filter fun (e : String × SVal) => decide (e.1 ∉ groupBy)) with
      | none => rw [ha] at h; cases h
      | some b =>
        rw [ha] at h
        simp only at h
        cases hs : sliceConfigs names groupBy sweep confs with
        | none => rw [hs] at h; cases h
        | some r' =>
          rw [hs] at h
          simp only [Option.some.injEq] at h
          rw [List.filter_cons, ha, ← ih r' hs]
          cases b <;> simp_all
  have hr := hfilter confs r h
  constructor
  · rw [hr]; exact List.filter_sublist
  · intro conf hc
    rw [hr, List.mem_filter, decide_eq_true_eq, hmatch conf]
    simp [hc]

example : sliceConfigs ["a", "b"] ["b"] (fun _ => some (.num 100)) [[.num 100, .num 1], [.num 120, .num 1]] =
    some [[.num 100, .num 1]] := by decide +kernel

/-- False as "exactly the matching ones": 105 is kept when 100 is requested. -/
theorem C40_keeps_different_values :
    sliceConfigs ["a"] [] (fun _ => some (.num 100)) [[.num 105]] = some [[.num 105]] := by decide +kernel

/-! ## C62 -/

/-- The regime of a number: low iff `2/sigma² ≥ 10000` (non-zero), high iff positive and not low, learned otherwise. -/
theorem C62_regime_partial (q : ℚ) :
    (noiseRegime (.num q) = "low".toList ↔ q ≠ 0 ∧ 5000 * (q * q) ≤ 1) ∧
    (noiseRegime (.num q) = "high".toList ↔ 0 < q ∧ 1 < 5000 * (q * q)) ∧
    (noiseRegime (.num q) = "learned".toList ↔ q = 0 ∨ (q < 0 ∧ 1 < 5000 * (q * q))) := by
  by_cases h0 : q = 0
  · subst h0; simp [noiseRegime]
  · have hpos : 0 < q * q := mul_self_pos.mpr h0
    have hlow : (10000 : ℚ) ≤ 2 / (q * q) ↔ 5000 * (q * q) ≤ 1 := by
      rw [le_div_iff₀ hpos]
      constructor <;> intro h <;> linarith
    unfold noiseRegime
    simp only [h0, if_false, hlow, ne_eq, not_false_eq_true, true_and, false_or]
    by_cases h1 : 5000 * (q * q) ≤ 1
    · simp [h1]
    · have h1' : 1 < 5000 * (q * q) := not_le.mp h1
      by_cases h2 : 0 < q
      · simp [h1, h1', h2, not_lt.mpr h2.le]
      · have h3 : q < 0 := lt_of_le_of_ne (not_lt.mp h2) h0
        simp [h1, h1', h2, h3]

/-- Missing or empty sigma counts as learned; any other string is its own regime. -/
theorem C62_regime_other (s : List Char) :
    noiseRegime .none = "learned".toList ∧ noiseRegime (.other []) = "learned".toList ∧
    noiseRegime (.other "none".toList) = "learned".toList ∧
    (s ≠ [] → s ≠ "none".toList → noiseRegime (.other s) = s) := by
  refine ⟨rfl, rfl, rfl, ?_⟩
  intro h1 h2
  unfold noiseRegime
  simp only
  rw [if_neg h1, if_neg h2]

/-- The model's own classification, which overwrites `noise_regime` in the settings, disagrees: sigma 0.05 is `low` there
and `high` in the sweep id and the folder name. -/
theorem C62_two_classifications_disagree :
    modelRegime false (.num (1 / 20)) = some "low".toList ∧ noiseRegime (.num (1 / 20)) = "high".toList := by
  constructor
  · unfold modelRegime; norm_num
  · exact ((C62_regime_partial (1 / 20)).2.1).mpr (by norm_num)

/-- The model's classification: `variable` when sigma is learnt or absent, otherwise `high` from one tenth on. -/
theorem C62_model_regime (learnt : Bool) (q : ℚ) :
    (modelRegime learnt (.num q) = some "variable".toList ↔ learnt = true) ∧
    (modelRegime learnt (.num q) = some "high".toList ↔ learnt = false ∧ 1 / 10 ≤ q) ∧
    (modelRegime learnt (.num q) = some "low".toList ↔ learnt = false ∧ q < 1 / 10) ∧
    modelRegime learnt .none = some "variable".toList := by
  cases learnt with
  | true => simp [modelRegime]
  | false =>
    by_cases h : (1 / 10 : ℚ) ≤ q
    · simp only [modelRegime, Bool.false_eq_true, if_false, h, if_true, not_lt.2 h]
      decide
    · simp only [modelRegime, Bool.false_eq_true, if_false, h, lt_of_not_ge h]
      decide

/-- For a given positive sigma the two classifications disagree exactly between `1/√5000` and one tenth. -/
theorem C62_disagree_iff (q : ℚ) (hq : 0 < q) :
    modelRegime false (.num q) ≠ some (noiseRegime (.num q)) ↔ 1 < 5000 * (q * q) ∧ q < 1 / 10 := by
  obtain ⟨h1, h2, _⟩ := C62_regime_partial q
  obtain ⟨_, h4, h5, _⟩ := C62_model_regime false q
  by_cases hs : 1 < 5000 * (q * q)
  · have hn := h2.2 ⟨hq, hs⟩
    rw [hn]
    constructor
    · intro h
      refine ⟨hs, ?_⟩
      by_contra hc
      exact h (h4.2 ⟨rfl, not_lt.1 hc⟩)
    · rintro ⟨_, hc⟩ h
      exact absurd (h4.1 h).2 (not_le.2 hc)
  · have hn := h1.2 ⟨ne_of_gt hq, not_lt.1 hs⟩
    have hlt : q < 1 / 10 := by nlinarith
    rw [hn, h5.2 ⟨rfl, hlt⟩]
    simp [hs]

end GeNSIT
