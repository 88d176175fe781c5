import Verif.Chain.Lemmas
import Verif.Chain.Spec

/-!
# Helper lemmas for the acceptance ratio and the direct samplers
-/

namespace GeNSIT

open Spec

set_option linter.unusedSimpArgs false

theorem foldlM_addSome {α : Type} (g : α → Option ℝ) (h : α → ℝ) (l : List α) (a : ℝ)
    (hall : ∀ c ∈ l, (g c).isSome) :
    l.foldlM (fun acc c => (g c).map fun f => acc + h c + f) a =
      some (a + (l.map fun c => h c + (g c).getD 0).sum) := by
  induction l generalizing a with
  | nil => simp
  | cons c l ih =>
    obtain ⟨f, hf⟩ := Option.isSome_iff_exists.mp (hall c (by simp))
    simp only [List.foldlM, hf, Option.map_some, Option.bind_eq_bind, Option.bind_some]
    rw [ih _ (fun d hd => hall d (List.mem_cons_of_mem _ hd))]
    simp [hf]; ring

theorem foldlM_none {α : Type} (g : α → Option ℝ) (h : α → ℝ) (l : List α) (a : ℝ)
    (hex : ∃ c ∈ l, g c = none) :
    l.foldlM (fun acc c => (g c).map fun f => acc + h c + f) a = none := by
  induction l generalizing a with
  | nil => simp at hex
  | cons c l ih =>
    simp only [List.foldlM]
    cases hc : g c with
    | none => simp
    | some f =>
      simp only [Option.map_some, Option.bind_eq_bind, Option.bind_some]
      apply ih
      obtain ⟨d, hd, hn⟩ := hex
      rcases List.mem_cons.mp hd with rfl | hd
      · rw [hc] at hn; exact absurd hn (by simp)
      · exact ⟨d, hd, hn⟩

theorem sum_allCells {M : Type} [AddCommMonoid M] {m n : Nat} (f : Cell m n → M) :
    ((allCells m n).map f).sum = ∑ i, ∑ j, f (i, j) := by
  simp only [allCells, List.map_flatMap, List.map_map, Fin.sum_univ_def]
  induction List.finRange m with
  | nil => simp
  | cons i l ih =>
    simp only [List.flatMap_cons, List.sum_append, List.map_cons, List.sum_cons, ih]
    rfl

theorem sum_filter_list {M : Type} [AddCommMonoid M] {α : Type} (p : α → Bool) (f : α → M) (l : List α)
    (h : ∀ c ∈ l, p c = false → f c = 0) : ((l.filter p).map f).sum = (l.map f).sum := by
  induction l with
  | nil => rfl
  | cons c l ih =>
    have ih' := ih (fun d hd => h d (List.mem_cons_of_mem _ hd))
    cases hp : p c with
    | true => simp [hp, ih']
    | false => simp [hp, ih', h c (by simp) hp]

theorem factorialTerm_none (new prev : Int) : factorialTerm new prev = none ↔ 2 ≤ new ∧ new < prev := by
  unfold factorialTerm
  split_ifs with h1 h2 h3
  · simp; omega
  · simp; omega
  · simp; omega
  · simp; omega

/-! ### filling cells -/

theorem fill_fold {m n : Nat} (cells : List (Cell m n)) (vals : List Int) (t : Table m n) (hnd : cells.Nodup)
    (hlen : cells.length = vals.length) :
    let t' := (cells.zip vals).foldl (fun acc cv => fun i j => if (i, j) = cv.1 then cv.2 else acc i j) t
    (∀ i j, (i, j) ∉ cells → t' i j = t i j) ∧ cells.map (fun c => t' c.1 c.2) = vals := by
  induction cells generalizing vals t with
  | nil => cases vals <;> simp_all
  | cons c cells ih =>
    cases vals with
    | nil => simp at hlen
    | cons v vals =>
      obtain ⟨hc, hnd'⟩ := List.nodup_cons.mp hnd
      simp only [List.zip_cons_cons, List.foldl_cons]
      obtain ⟨h1, h2⟩ := ih vals (fun i j => if (i, j) = c then v else t i j) hnd' (by simpa using hlen)
      refine ⟨fun i j hij => ?_, ?_⟩
      · rw [h1 i j (fun h => hij (List.mem_cons_of_mem _ h))]
        rw [if_neg (fun h => hij (by simp [h]))]
      · simp only [List.map_cons, List.cons.injEq]
        exact ⟨by rw [h1 c.1 c.2 hc]; simp, h2⟩

theorem fillCells_spec {m n : Nat} (cells : List (Cell m n)) (vals : List Int) (t : Table m n) (hnd : cells.Nodup)
    (hlen : cells.length = vals.length) :
    ∃ t', fillCells t cells vals = some t' ∧ (∀ i j, (i, j) ∉ cells → t' i j = t i j) ∧
      cells.map (fun c => t' c.1 c.2) = vals := by
  refine ⟨_, by unfold fillCells; rw [if_pos hlen], ?_⟩
  exact fill_fold cells vals t hnd hlen

theorem fixedTable_fold {m n : Nat} (truth acc : Table m n) (fixed : List (Cell m n)) (i : Fin m) (j : Fin n) :
    fixed.foldl (fun acc c => fun i j => if (i, j) = c then truth c.1 c.2 else acc i j) acc i j =
      if (i, j) ∈ fixed then truth i j else acc i j := by
  induction fixed generalizing acc with
  | nil => simp
  | cons c fixed ih =>
    simp only [List.foldl_cons]
    rw [ih]
    by_cases h : (i, j) ∈ fixed
    · simp [h]
    · by_cases h2 : (i, j) = c
      · subst h2; simp
      · simp [h, h2]

theorem fixedTable_apply {m n : Nat} (truth : Table m n) (fixed : List (Cell m n)) (i : Fin m) (j : Fin n) :
    fixedTable truth fixed i j = if (i, j) ∈ fixed then truth i j else 0 :=
  fixedTable_fold truth _ fixed i j

theorem freeCells_nodup {m n : Nat} (fixed : List (Cell m n)) : (freeCells fixed).Nodup :=
  (freeCells_sorted fixed).imp (fun h => h.ne)

theorem sampleFreeCells_spec {m n : Nat} (truth : Table m n) (fixed : List (Cell m n)) (draws : List Int)
    (hlen : (freeCells fixed).length = draws.length) :
    ∃ t', sampleFreeCells truth fixed draws = some t' ∧ AgreeAt fixed t' truth ∧
      (freeCells fixed).map (fun c => t' c.1 c.2) = draws := by
  obtain ⟨t', h1, h2, h3⟩ := fillCells_spec (freeCells fixed) draws (fixedTable truth fixed)
    (freeCells_nodup fixed) hlen
  refine ⟨t', h1, fun i j hij => ?_, h3⟩
  rw [h2 i j (by rw [mem_freeCells]; exact fun h => h hij), fixedTable_apply, if_pos hij]

theorem total_split {m n : Nat} (truth t : Table m n) (fixed : List (Cell m n)) (h : AgreeAt fixed t truth) :
    total t = fixedTotal truth fixed + ((freeCells fixed).map (fun c => t c.1 c.2)).sum := by
  have e : ((freeCells fixed).map (fun c => t c.1 c.2)).sum =
      ∑ i, ∑ j, if (i, j) ∈ fixed then 0 else t i j := by
    rw [← sum_allCells (fun c => if c ∈ fixed then 0 else t c.1 c.2)]
    unfold freeCells removeCells
    rw [← sum_filter_list (fun c => !fixed.contains c) (fun c : Cell m n => if c ∈ fixed then 0 else t c.1 c.2)]
    · congr 1
      apply List.map_congr_left
      intro c hc
      simp only [List.mem_filter, Bool.not_eq_true', List.contains_eq_mem, decide_eq_false_iff_not] at hc
      simp [hc.2]
    · intro c _ hc
      have : c ∈ fixed := by simpa using hc
      simp [this]
  rw [e]
  unfold total fixedTotal
  rw [← Finset.sum_add_distrib]
  refine Finset.sum_congr rfl fun i _ => ?_
  rw [← Finset.sum_add_distrib]
  refine Finset.sum_congr rfl fun j _ => ?_
  by_cases hij : (i, j) ∈ fixed
  · simp [hij, h i j hij]
  · simp [hij]

theorem groupCells_rows {m n : Nat} (fixed : List (Cell m n)) (i : Fin m) : groupCells fixed true i.val =
    ((List.finRange n).map (fun j => (i, j))).filter fun c => !fixed.contains c := by
  unfold groupCells freeCells removeCells allCells
  rw [List.filter_filter]
  simp only [if_true]
  have : ∀ l : List (Fin m), l.Nodup → (l.flatMap (fun i => (List.finRange n).map (fun j => (i, j)))).filter
      (fun a : Cell m n => a.1.val == i.val && !fixed.contains a) =
      if i ∈ l then ((List.finRange n).map (fun j => (i, j))).filter fun c => !fixed.contains c else [] := by
    intro l hl
    induction l with
    | nil => simp
    | cons k l ih =>
      obtain ⟨hk, hl'⟩ := List.nodup_cons.mp hl
      rw [List.flatMap_cons, List.filter_append, ih hl']
      by_cases hik : i = k
      · subst hik
        simp only [hk, if_false, List.append_nil, List.mem_cons, true_or, if_true]
        apply List.filter_congr
        intro c hc
        obtain ⟨j, _, rfl⟩ := List.mem_map.mp hc
        simp
      · have hnil : ((List.finRange n).map (fun j => (k, j))).filter
            (fun a : Cell m n => a.1.val == i.val && !fixed.contains a) = [] := by
          rw [List.filter_eq_nil_iff]
          intro c hc
          obtain ⟨j, _, rfl⟩ := List.mem_map.mp hc
          have : ¬ k.val = i.val := fun h => hik (Fin.ext h.symm)
          simp [this]
        rw [hnil]
        simp [hik]
  rw [this _ (List.nodup_finRange m)]
  simp

/-- The free cells in lexicographic order are the free cells of row 0, then of row 1, … -/
theorem freeCells_by_rows {m n : Nat} (fixed : List (Cell m n)) :
    freeCells fixed = (List.finRange m).flatMap fun i => groupCells fixed true i.val := by
  unfold freeCells removeCells allCells
  rw [List.filter_flatMap]
  congr 1
  funext i
  exact (groupCells_rows fixed i).symm

theorem flatMap_blocks {α β : Type} {k : Nat} (f : α → β) (cells : Fin k → List α) (blocks : Fin k → List β)
    (hlen : ∀ i, (cells i).length = (blocks i).length) (l : List (Fin k))
    (h : (l.flatMap cells).map f = l.flatMap blocks) : ∀ i ∈ l, (cells i).map f = blocks i := by
  induction l with
  | nil => simp
  | cons i l ih =>
    simp only [List.flatMap_cons, List.map_append] at h
    obtain ⟨h1, h2⟩ := List.append_inj h (by simp [hlen i])
    intro d hd
    rcases List.mem_cons.mp hd with rfl | hd
    · exact h1
    · exact ih h2 d hd

end GeNSIT
