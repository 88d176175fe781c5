import Verif.Outputs.Names
import Verif.Outputs.Props
import Mathlib.Algebra.BigOperators.Ring.List

/-!
# Loading the stored samples of one run

`Outputs.load_h5_data` and `Outputs.read_h5_file` (`gensit/outputs.py:552-687`). The file of a run holds one dataset per sample, each with its
own shape. While reading, one table of extents is shared by all datasets; afterwards every dataset is reshaped to the extents of that table.
-/

namespace GeNSIT

/-- The entry of a sample in `OUTPUT_SCHEMA` (`gensit/static/global_variables.py:307-463`): does it have one row per stored iteration, and its
dimensions. `none` is a `KeyError` (no entry, or one without `is_iterable`). -/
def outSchema (name : String) : Option (Bool × List String) :=
  if name ∈ ["table", "intensity"] then some (true, ["origin", "destination"])
  else if name = "log_destination_attraction" then some (true, ["destination", "time"])
  else if name ∈ ["r2", "log_posterior_approximation"] then some (false, ["alpha_range", "beta_range"])
  else if name = "log_origin_attraction" then none
  else if name ∈ outputKeys then some (true, []) else none

/-- The dimensions of a stored sample (`outputs.py:589-590`, `632-654`). -/
def storedDims (name : String) : Option (List String) :=
  (outSchema name).map fun s => (if s.1 then ["iter"] else []) ++ s.2

/-- The keys of `COORDINATES_DTYPES` (`global_variables.py:494-541`). -/
def coordinateNames : List String :=
  ["iter", "time", "origin", "destination", "seed", "alpha_range", "beta_range", "N", "dataset", "covariance", "step_size", "to_learn",
   "alpha", "beta", "noise_percentage", "delta", "kappa", "sigma", "title", "axes", "cells", "loss_name", "loss_function", "loss_kwargs",
   "name", "table_steps", "bmax", "cost_matrix", "adjacency_matrix", "region_features", "origin_region_features",
   "destination_region_features", "destination_attraction_ts", "proposal", "train_cells", "test_cells", "validation_cells",
   "gat_multitask_weights"]

/-- A dataset of the file: its name, shape and cells in row-major order. Conversions between numeric types are not modelled. -/
structure H5Set (V : Type) where
  name : String
  shape : List ℕ
  cells : List V

/-- The group of a run: the swept settings with their value (`outputs.py:622-629`) and the datasets in the order in which they are iterated
over (h5py: by name). -/
structure H5Run (S V : Type) where
  sweep : List (String × S)
  sets : List (H5Set V)

/-- A loaded sample: coordinates (swept values, or positions counted from one) and cells in row-major order (`outputs.py:601-607`). -/
structure LoadedSample (S V : Type) where
  name : String
  coords : List (String × List (S ⊕ ℕ))
  cells : List V

/-- The failures that leave `load_h5_data`: an unknown swept setting (`KeyError`, `outputs.py:575-578`) and a dataset that does not have as
many cells as the coordinates require (`ValueError`, `outputs.py:602`). -/
inductive H5Err
  | unknownCoordinate
  | reshape
  deriving DecidableEq

/-- The extents of one dataset replace those found so far (`outputs.py:632-668`). -/
def setExtents (g : String → Option ℕ) : List (String × ℕ) → (String → Option ℕ)
  | [] => g
  | (k, n) :: r => setExtents (fun x => if x = k then some n else g x) r

/-- The loop over the datasets that were asked for (`outputs.py:633-678`). `none`: some exception, reported as a corrupted file. -/
def readExtents {V : Type} : List (H5Set V) → (String → Option ℕ) → Option (String → Option ℕ)
  | [], g => some g
  | d :: r, g => match storedDims d.name with
    | none => none
    | some ds => if ds.length ≤ d.shape.length then readExtents r (setExtents g (ds.zip d.shape)) else none

/-- The coordinates given to a sample (`outputs.py:588-599`). A swept setting called like a dimension of the sample (there is none) would be
replaced by the dimension. -/
def sampleCoords {S : Type} (sweep : List (String × S)) (g : String → Option ℕ) (name : String) (ds : List String) :
    List (String × List (S ⊕ ℕ)) :=
  ((sweep.filter fun e => e.1 ≠ name ∧ e.1 ∉ ds).map fun e => (e.1, [Sum.inl e.2])) ++
    ds.map fun k => (k, (List.range' 1 ((g k).getD 0)).map Sum.inr)

/-- One sample (`outputs.py:586-607`). -/
def loadOne {S V : Type} (sweep : List (String × S)) (g : String → Option ℕ) (d : H5Set V) : Except H5Err (LoadedSample S V) :=
  let coords := sampleCoords sweep g d.name ((storedDims d.name).getD [])
  if (coords.map fun c => c.2.length).prod = d.cells.length then .ok ⟨d.name, coords, d.cells⟩ else .error .reshape

/-- `load_h5_data` (`outputs.py:552-609`): no file, one that cannot be read or one in use gives no samples (`none` here). -/
def loadH5 {S V : Type} (requested : List String) : Option (H5Run S V) → Except H5Err (List (LoadedSample S V))
  | none => .ok []
  | some f =>
    let sets := f.sets.filter fun d => d.name ∈ requested
    match readExtents sets (fun _ => none) with
    | none => .ok []
    | some g => if f.sweep.all (fun e => e.1 ∈ coordinateNames) then sets.mapM (loadOne f.sweep g) else .error .unknownCoordinate

/-! ## Specification -/

/-- A dataset has the shape that was meant for it: one extent for every dimension, and a cell for every combination. -/
def Spec.WellShaped {V : Type} (d : H5Set V) : Prop :=
  ∃ ds, storedDims d.name = some ds ∧ d.shape.length = ds.length ∧ d.cells.length = d.shape.prod

/-- The dataset has extent `n` along dimension `k`. -/
def Spec.Extent {V : Type} (d : H5Set V) (k : String) (n : ℕ) : Prop :=
  ∃ ds, storedDims d.name = some ds ∧ (k, n) ∈ ds.zip d.shape

/-- The coordinates a sample should have: each swept setting other than itself with its value, then each dimension numbered from one to the
extent of this dataset. -/
def Spec.properCoords {S V : Type} (sweep : List (String × S)) (d : H5Set V) (ds : List String) : List (String × List (S ⊕ ℕ)) :=
  ((sweep.filter fun e => e.1 ≠ d.name).map fun e => (e.1, [Sum.inl e.2])) ++
    (ds.zip d.shape).map fun e => (e.1, (List.range' 1 e.2).map Sum.inr)

/-! ## Lemmas -/

theorem storedDims_nodup {name : String} {ds : List String} (h : storedDims name = some ds) : ds.Nodup := by
  unfold storedDims outSchema at h
  split_ifs at h <;> simp at h <;> subst h <;> decide

theorem storedDims_dims {name : String} {ds : List String} (h : storedDims name = some ds) :
    ∀ k ∈ ds, k ∈ ["iter", "origin", "destination", "time", "alpha_range", "beta_range"] := by
  unfold storedDims outSchema at h
  split_ifs at h <;> simp at h <;> subst h <;> decide

theorem setExtents_other (kvs : List (String × ℕ)) (g : String → Option ℕ) (k : String) (h : k ∉ kvs.map (·.1)) : setExtents g kvs k = g k := by
  induction kvs generalizing g with
  | nil => rfl
  | cons e r ih =>
    obtain ⟨k', n⟩ := e
    simp only [List.map_cons, List.mem_cons, not_or] at h
    simp only [setExtents]
    rw [ih _ h.2, if_neg h.1]

theorem setExtents_mem (kvs : List (String × ℕ)) (g : String → Option ℕ) (hn : (kvs.map (·.1)).Nodup) {k : String} {n : ℕ} (h : (k, n) ∈ kvs) :
    setExtents g kvs k = some n := by
  induction kvs generalizing g with
  | nil => simp at h
  | cons e r ih =>
    obtain ⟨k', n'⟩ := e
    simp only [List.map_cons, List.nodup_cons] at hn
    simp only [setExtents]
    rcases List.mem_cons.1 h with h | h
    · obtain ⟨rfl, rfl⟩ := Prod.mk.inj h
      rw [setExtents_other _ _ _ hn.1, if_pos rfl]
    · exact ih _ hn.2 h

theorem map_fst_zip_of_le {ds : List String} {sh : List ℕ} (h : ds.length ≤ sh.length) : (ds.zip sh).map (·.1) = ds := by
  have : (ds.zip sh).map Prod.fst = ds := List.map_fst_zip h
  exact this

/-- After reading, the extent of a dimension is that of the last dataset with that dimension. -/
theorem readExtents_spec {V : Type} (sets : List (H5Set V)) (g g' : String → Option ℕ) (h : readExtents sets g = some g') (k : String) :
    ((∃ a d b n, sets = a ++ d :: b ∧ Spec.Extent d k n ∧ g' k = some n ∧ ∀ d' ∈ b, ∀ n', ¬ Spec.Extent d' k n') ∨
      (g' k = g k ∧ ∀ d' ∈ sets, ∀ n', ¬ Spec.Extent d' k n')) := by
  induction sets generalizing g with
  | nil =>
    simp only [readExtents, Option.some.injEq] at h
    subst h
    exact Or.inr ⟨rfl, by simp⟩
  | cons d r ih =>
    simp only [readExtents] at h
    split at h
    · simp at h
    · rename_i ds hds
      split at h
      · rename_i hlen
        rcases ih _ h with ⟨a, d', b, n, e, h1, h2, h3⟩ | ⟨h1, h2⟩
        · exact Or.inl ⟨d :: a, d', b, n, by simp [e], h1, h2, h3⟩
        · by_cases hk : k ∈ ds
          · have hk' : k ∈ (ds.zip d.shape).map (·.1) := by rw [map_fst_zip_of_le hlen]; exact hk
            obtain ⟨⟨k', n⟩, hm, rfl⟩ := List.mem_map.1 hk'
            refine Or.inl ⟨[], d, r, n, rfl, ⟨ds, hds, hm⟩, ?_, h2⟩
            rw [h1]
            exact setExtents_mem _ _ (by rw [map_fst_zip_of_le hlen]; exact storedDims_nodup hds) hm
          · have hk' : k ∉ (ds.zip d.shape).map (·.1) := by rw [map_fst_zip_of_le hlen]; exact hk
            refine Or.inr ⟨by rw [h1, setExtents_other _ _ _ hk'], ?_⟩
            intro d' hd' n'
            rcases List.mem_cons.1 hd' with rfl | hd'
            · rintro ⟨ds', e, hm⟩
              rw [hds] at e
              obtain rfl := Option.some.inj e
              exact hk' (List.mem_map.2 ⟨_, hm, rfl⟩)
            · exact h2 d' hd' n'
      · simp at h

theorem readExtents_some {V : Type} (sets : List (H5Set V)) (hw : ∀ d ∈ sets, Spec.WellShaped d) (g : String → Option ℕ) :
    ∃ g', readExtents sets g = some g' := by
  induction sets generalizing g with
  | nil => exact ⟨g, rfl⟩
  | cons d r ih =>
    obtain ⟨ds, h1, h2, _⟩ := hw d (by simp)
    simp only [readExtents, h1]
    rw [if_pos h2.ge]
    exact ih (fun d hd => hw d (by simp [hd])) _

theorem Spec.Extent.unique {V : Type} {d : H5Set V} {k : String} {n n' : ℕ} (hw : Spec.WellShaped d) (h : Spec.Extent d k n)
    (h' : Spec.Extent d k n') : n = n' := by
  obtain ⟨ds, e, hl, _⟩ := hw
  obtain ⟨ds1, e1, m1⟩ := h
  obtain ⟨ds2, e2, m2⟩ := h'
  rw [e] at e1 e2
  obtain rfl := Option.some.inj e1
  obtain rfl := Option.some.inj e2
  have hn : ((ds.zip d.shape).map (·.1)).Nodup := by rw [map_fst_zip_of_le hl.ge]; exact storedDims_nodup e
  have a := setExtents_mem _ (fun _ => none) hn m1
  have b := setExtents_mem _ (fun _ => none) hn m2
  rw [a] at b
  exact Option.some.inj b

theorem exceptMapM_ok {α β ε : Type} (f : α → Except ε β) (l : List α) (g : α → β) (h : ∀ x ∈ l, f x = .ok (g x)) :
    l.mapM f = .ok (l.map g) := by
  induction l with
  | nil => rfl
  | cons a l ih =>
    rw [List.mapM_cons, h a (by simp), ih fun x hx => h x (by simp [hx])]
    rfl

theorem exceptMapM_error {α β ε : Type} (f : α → Except ε β) (e : ε) (l : List α) (hall : ∀ x ∈ l, (∃ y, f x = .ok y) ∨ f x = .error e)
    (h : ∃ x ∈ l, f x = .error e) : l.mapM f = .error e := by
  induction l with
  | nil => simp at h
  | cons a l ih =>
    rw [List.mapM_cons]
    rcases hall a (by simp) with ⟨y, hy⟩ | hy
    · rw [hy]
      obtain ⟨x, hx, hfx⟩ := h
      rcases List.mem_cons.1 hx with rfl | hx
      · rw [hy] at hfx; simp at hfx
      · have := ih (fun x hx => hall x (by simp [hx])) ⟨x, hx, hfx⟩
        rw [show (Except.ok y >>= fun r => List.mapM f l >>= fun rs => pure (r :: rs)) = (List.mapM f l >>= fun rs => pure (y :: rs)) from rfl, this]
        rfl
    · rw [hy]; rfl

theorem zip_map_getD {ds : List String} {sh : List ℕ} (hl : ds.length = sh.length) (f : String → ℕ) (h : ∀ e ∈ ds.zip sh, f e.1 = e.2) :
    ds.map f = sh := by
  induction ds generalizing sh with
  | nil => cases sh with
    | nil => rfl
    | cons => simp at hl
  | cons a r ih =>
    cases sh with
    | nil => simp at hl
    | cons n sh =>
      simp only [List.zip_cons_cons, List.mem_cons] at h
      rw [List.map_cons, ih (by simpa using hl) (fun e he => h e (Or.inr he)), h (a, n) (Or.inl rfl)]

theorem prod_coords {S : Type} (sweep : List (String × S)) (g : String → Option ℕ) (name : String) (ds : List String) :
    ((sampleCoords sweep g name ds).map fun c => c.2.length).prod = (ds.map fun k => (g k).getD 0).prod := by
  unfold sampleCoords
  rw [List.map_append, List.prod_append, List.map_map, List.map_map]
  have : ((sweep.filter fun e => e.1 ≠ name ∧ e.1 ∉ ds).map ((fun c : String × List (S ⊕ ℕ) => c.2.length) ∘ fun e => (e.1, [Sum.inl e.2]))).prod = 1 := by
    induction sweep.filter fun e => e.1 ≠ name ∧ e.1 ∉ ds with
    | nil => rfl
    | cons a r ih => simp only [List.map_cons, List.prod_cons, ih]; rfl
  rw [this, one_mul]
  congr 1
  apply List.map_congr_left
  intro k _
  simp

/-! ## C130 -/

/-- C130: if the datasets asked for agree on the extents of the dimensions they share, and swept settings are known ones not called like a
dimension, each is loaded, in order, with its own cells, its own extents numbered from one and the swept values. -/
theorem C130_loads_partial {S V : Type} (requested : List String) (f : H5Run S V) (hw : ∀ d ∈ f.sets, d.name ∈ requested → Spec.WellShaped d)
    (hs : ∀ e ∈ f.sweep, e.1 ∈ coordinateNames ∧ e.1 ∉ ["iter", "origin", "destination", "time", "alpha_range", "beta_range"])
    (hagree : ∀ d ∈ f.sets, d.name ∈ requested → ∀ d' ∈ f.sets, d'.name ∈ requested → ∀ k n n', Spec.Extent d k n → Spec.Extent d' k n' → n = n') :
    loadH5 requested (some f) = .ok ((f.sets.filter fun d => d.name ∈ requested).map fun d =>
      ⟨d.name, Spec.properCoords f.sweep d ((storedDims d.name).getD []), d.cells⟩) := by
  have hw' : ∀ d ∈ f.sets.filter (fun d => d.name ∈ requested), Spec.WellShaped d := by
    intro d hd
    obtain ⟨h1, h2⟩ := List.mem_filter.1 hd
    exact hw d h1 (by simpa using h2)
  obtain ⟨g, hg⟩ := readExtents_some _ hw' (fun _ => none)
  have hread : ∀ d ∈ f.sets.filter (fun d => d.name ∈ requested), ∀ k n, Spec.Extent d k n → g k = some n := by
    intro d hd k n hx
    rcases readExtents_spec _ _ _ hg k with ⟨a, d', b, n', e, h1, h2, _⟩ | ⟨_, h2⟩
    · have hd' : d' ∈ f.sets.filter (fun d => d.name ∈ requested) := by rw [e]; simp
      obtain ⟨m1, m2⟩ := List.mem_filter.1 hd
      obtain ⟨m3, m4⟩ := List.mem_filter.1 hd'
      rw [h2, hagree d m1 (by simpa using m2) d' m3 (by simpa using m4) k n n' hx h1]
    · exact absurd hx (h2 d hd n)
  simp only [loadH5, hg]
  rw [if_pos (List.all_eq_true.2 fun e he => by simpa using (hs e he).1)]
  apply exceptMapM_ok
  intro d hd
  obtain ⟨ds, h1, h2, h3⟩ := hw' d hd
  have hz : ∀ e ∈ ds.zip d.shape, (g e.1).getD 0 = e.2 := by
    intro e he
    rw [hread d hd e.1 e.2 ⟨ds, h1, he⟩]; rfl
  unfold loadOne
  simp only [h1, Option.getD_some]
  rw [prod_coords, zip_map_getD h2.symm _ hz, if_pos h3.symm]
  congr 1
  congr 1
  unfold sampleCoords Spec.properCoords
  congr 1
  · congr 1
    apply List.filter_congr
    intro e he
    have : e.1 ∉ ds := fun hc => (hs e he).2 (storedDims_dims h1 _ hc)
    simp [this]
  · have hmap : ds = (ds.zip d.shape).map (·.1) := (map_fst_zip_of_le h2.ge).symm
    conv_lhs => rw [hmap]
    rw [List.map_map]
    apply List.map_congr_left
    intro e he
    simp [hz e he]

/-- A run of two swept settings with a table and its computation times. -/
def exRun : H5Run ℚ ℕ := ⟨[("alpha", 1/2), ("seed", 3)], [⟨"compute_time", [2], [7, 8]⟩, ⟨"table", [2, 1, 2], [1, 2, 3, 4]⟩]⟩

theorem exRun_compute : storedDims "compute_time" = some ["iter"] := by decide
theorem exRun_table : storedDims "table" = some ["iter", "origin", "destination"] := by decide

theorem exRun_shaped : ∀ d ∈ exRun.sets, d.name ∈ ["compute_time", "table"] → Spec.WellShaped d := by
  intro d hd _
  simp only [exRun, List.mem_cons, List.not_mem_nil, or_false] at hd
  rcases hd with rfl | rfl
  · exact ⟨_, exRun_compute, rfl, rfl⟩
  · exact ⟨_, exRun_table, rfl, rfl⟩

example : (∀ e ∈ exRun.sweep, e.1 ∈ coordinateNames ∧ e.1 ∉ ["iter", "origin", "destination", "time", "alpha_range", "beta_range"]) ∧
    ∀ d ∈ exRun.sets, d.name ∈ ["compute_time", "table"] → ∀ d' ∈ exRun.sets, d'.name ∈ ["compute_time", "table"] →
      ∀ k n n', Spec.Extent d k n → Spec.Extent d' k n' → n = n' := by
  refine ⟨by simp [exRun, coordinateNames], ?_⟩
  intro d hd _ d' hd' _ k n n' h h'
  simp only [exRun, List.mem_cons, List.not_mem_nil, or_false] at hd hd'
  obtain ⟨ds, e, hm⟩ := h
  obtain ⟨ds', e', hm'⟩ := h'
  rcases hd with rfl | rfl <;> rcases hd' with rfl | rfl <;> simp only [exRun_compute, exRun_table, Option.some.injEq] at e e' <;> subst e <;>
    subst e' <;> simp at hm hm' <;> grind

example : (match loadH5 ["compute_time", "table"] (some exRun) with
    | .ok l => some (l.map fun s => (s.name, s.coords.map (·.1), s.cells))
    | .error _ => none) =
    some [("compute_time", ["alpha", "seed", "iter"], [7, 8]), ("table", ["alpha", "seed", "iter", "origin", "destination"], [1, 2, 3, 4])] := by
  decide +kernel

/-- C130, exact condition: well shaped datasets load exactly if swept settings are known and every dataset has as many cells as the extents of
the last dataset asked for along each of its dimensions require; otherwise loading raises. -/
theorem C130_loads_iff {S V : Type} (requested : List String) (f : H5Run S V) (hw : ∀ d ∈ f.sets, d.name ∈ requested → Spec.WellShaped d)
    (last : String → ℕ)
    (hlast : ∀ k, (∃ a d b, f.sets.filter (fun d => d.name ∈ requested) = a ++ d :: b ∧ Spec.Extent d k (last k) ∧
      ∀ d' ∈ b, ∀ n, ¬ Spec.Extent d' k n) ∨ ∀ d ∈ f.sets, d.name ∈ requested → ∀ n, ¬ Spec.Extent d k n) :
    (∃ l, loadH5 requested (some f) = .ok l) ↔ (∀ e ∈ f.sweep, e.1 ∈ coordinateNames) ∧
      ∀ d ∈ f.sets, d.name ∈ requested → ∀ ds, storedDims d.name = some ds → d.shape.prod = (ds.map last).prod := by
  have hw' : ∀ d ∈ f.sets.filter (fun d => d.name ∈ requested), Spec.WellShaped d := by
    intro d hd
    obtain ⟨h1, h2⟩ := List.mem_filter.1 hd
    exact hw d h1 (by simpa using h2)
  obtain ⟨g, hg⟩ := readExtents_some _ hw' (fun _ => none)
  have hgl : ∀ d ∈ f.sets, d.name ∈ requested → ∀ ds, storedDims d.name = some ds → ∀ k ∈ ds, (g k).getD 0 = last k := by
    intro d hd hr ds hds k hk
    have hex : ∃ n, Spec.Extent d k n := by
      obtain ⟨ds', e, hl, _⟩ := hw d hd hr
      rw [hds] at e
      obtain rfl := Option.some.inj e
      have : k ∈ (ds.zip d.shape).map (·.1) := by rw [map_fst_zip_of_le hl.ge]; exact hk
      obtain ⟨⟨k', n⟩, hm, rfl⟩ := List.mem_map.1 this
      exact ⟨n, ds, hds, hm⟩
    obtain ⟨n0, hn0⟩ := hex
    have hdm : d ∈ f.sets.filter (fun d => d.name ∈ requested) := List.mem_filter.2 ⟨hd, by simpa using hr⟩
    rcases readExtents_spec _ _ _ hg k with ⟨a, d1, b, n, e, h1, h2, h3⟩ | ⟨_, h2⟩
    · rcases hlast k with ⟨a', d2, b', e', h1', h3'⟩ | h
      · rw [h2]
        rw [e] at e'
        rcases List.append_eq_append_iff.1 e' with ⟨c, hc1, hc2⟩ | ⟨c, hc1, hc2⟩
        · cases c with
          | nil =>
            simp only [List.nil_append, List.cons.injEq] at hc2
            obtain ⟨rfl, rfl⟩ := hc2
            have hd2 : d1 ∈ f.sets.filter (fun d => d.name ∈ requested) := by rw [e]; simp
            exact Spec.Extent.unique (hw' _ hd2) h1 h1'
          | cons x c =>
            simp only [List.cons_append, List.cons.injEq] at hc2
            obtain ⟨rfl, rfl⟩ := hc2
            exact absurd h1' (h3 d2 (by simp) _)
        · cases c with
          | nil =>
            simp only [List.nil_append, List.cons.injEq] at hc2
            obtain ⟨rfl, rfl⟩ := hc2
            have hd2 : d2 ∈ f.sets.filter (fun d => d.name ∈ requested) := by rw [e]; simp
            exact Spec.Extent.unique (hw' _ hd2) h1 h1'
          | cons x c =>
            simp only [List.cons_append, List.cons.injEq] at hc2
            obtain ⟨rfl, rfl⟩ := hc2
            exact absurd h1 (h3' d1 (by simp) _)
      · exact absurd hn0 (h d hd hr n0)
    · exact absurd hn0 (h2 d hdm n0)
  have hone : ∀ d ∈ f.sets, d.name ∈ requested → ∀ ds, storedDims d.name = some ds →
      ((((sampleCoords f.sweep g d.name ((storedDims d.name).getD [])).map fun c => c.2.length).prod = d.cells.length) ↔
        d.shape.prod = (ds.map last).prod) := by
    intro d hd hr ds hds
    obtain ⟨ds', e, hl, hc⟩ := hw d hd hr
    rw [prod_coords, hds, Option.getD_some, hc, List.map_congr_left (hgl d hd hr ds hds)]
    exact eq_comm
  simp only [loadH5, hg]
  by_cases hall : f.sweep.all (fun e => decide (e.1 ∈ coordinateNames)) = true
  · rw [if_pos hall]
    have hall' : ∀ e ∈ f.sweep, e.1 ∈ coordinateNames := fun e he => by simpa using List.all_eq_true.1 hall e he
    constructor
    · rintro ⟨l, hl⟩
      refine ⟨hall', ?_⟩
      intro d hd hr ds hds
      by_contra hne
      have herr : (f.sets.filter fun d => decide (d.name ∈ requested)).mapM (loadOne f.sweep g) = .error .reshape := by
        apply exceptMapM_error
        · intro x _
          unfold loadOne
          simp only
          split
          · exact Or.inl ⟨_, rfl⟩
          · exact Or.inr rfl
        · refine ⟨d, List.mem_filter.2 ⟨hd, by simpa using hr⟩, ?_⟩
          unfold loadOne
          simp only
          rw [if_neg fun h => hne ((hone d hd hr ds hds).1 h)]
      rw [herr] at hl
      simp at hl
    · rintro ⟨_, h⟩
      refine ⟨_, exceptMapM_ok _ _ (fun d => ⟨d.name, sampleCoords f.sweep g d.name ((storedDims d.name).getD []), d.cells⟩) ?_⟩
      intro d hd
      obtain ⟨m1, m2⟩ := List.mem_filter.1 hd
      have m2' : d.name ∈ requested := by simpa using m2
      obtain ⟨ds, e, _⟩ := hw d m1 m2'
      unfold loadOne
      simp only
      rw [if_pos ((hone d m1 m2' ds e).2 (h d m1 m2' ds e))]
  · rw [if_neg hall]
    simp only [reduceCtorEq, exists_false, false_iff, not_and]
    intro h
    exact absurd (List.all_eq_true.2 fun e he => by simpa using h e he) hall

/-- C130: so datasets with different numbers of rows cannot be loaded together: loading both raises, whatever else is in the file. -/
theorem C130_rows_fail {S V : Type} (requested : List String) (f : H5Run S V) (hw : ∀ d ∈ f.sets, d.name ∈ requested → Spec.WellShaped d)
    (hagree : ∀ d ∈ f.sets, d.name ∈ requested → ∀ d' ∈ f.sets, d'.name ∈ requested → ∀ k n n', k ≠ "iter" → Spec.Extent d k n →
      Spec.Extent d' k n' → n = n' ∧ 0 < n)
    (d d' : H5Set V) (hd : d ∈ f.sets) (hd' : d' ∈ f.sets) (hr : d.name ∈ requested) (hr' : d'.name ∈ requested) (n n' : ℕ)
    (hn : Spec.Extent d "iter" n) (hn' : Spec.Extent d' "iter" n') (hne : n ≠ n') : ∀ l, loadH5 requested (some f) ≠ .ok l := by
  have hw' : ∀ d ∈ f.sets.filter (fun d => d.name ∈ requested), Spec.WellShaped d := by
    intro d hd
    obtain ⟨h1, h2⟩ := List.mem_filter.1 hd
    exact hw d h1 (by simpa using h2)
  obtain ⟨g, hg⟩ := readExtents_some _ hw' (fun _ => none)
  have hlast : ∀ k, (∃ a d b, f.sets.filter (fun d => d.name ∈ requested) = a ++ d :: b ∧ Spec.Extent d k ((fun k => (g k).getD 0) k) ∧
      ∀ d' ∈ b, ∀ n, ¬ Spec.Extent d' k n) ∨ ∀ d ∈ f.sets, d.name ∈ requested → ∀ n, ¬ Spec.Extent d k n := by
    intro k
    rcases readExtents_spec _ _ _ hg k with ⟨a, d1, b, m, e, h1, h2, h3⟩ | ⟨_, h2⟩
    · refine Or.inl ⟨a, d1, b, e, ?_, h3⟩
      simpa [h2] using h1
    · exact Or.inr fun d hd hr => h2 d (List.mem_filter.2 ⟨hd, by simpa using hr⟩)
  intro l hl
  have key := ((C130_loads_iff requested f hw (fun k => (g k).getD 0) hlast).1 ⟨l, hl⟩).2
  -- every iterable dataset asked for has as many rows as the last one
  have rows : ∀ d ∈ f.sets, d.name ∈ requested → ∀ n, Spec.Extent d "iter" n → n = (g "iter").getD 0 := by
    intro d hd hr n hx
    obtain ⟨ds, e, hlen, _⟩ := hw d hd hr
    have hp := key d hd hr ds e
    obtain ⟨ds1, e1, hm⟩ := hx
    rw [e] at e1
    obtain rfl := Option.some.inj e1
    have hother : ∀ p ∈ ds.zip d.shape, p.1 ≠ "iter" → (g p.1).getD 0 = p.2 ∧ 0 < p.2 := by
      intro p hp hne
      have hx : Spec.Extent d p.1 p.2 := ⟨ds, e, hp⟩
      rcases hlast p.1 with ⟨a, d1, b, e2, h1, _⟩ | h
      · have hd1 : d1 ∈ f.sets.filter (fun d => d.name ∈ requested) := by rw [e2]; simp
        obtain ⟨m1, m2⟩ := List.mem_filter.1 hd1
        obtain ⟨h3, h4⟩ := hagree d hd hr d1 m1 (by simpa using m2) p.1 _ _ hne hx h1
        exact ⟨h3.symm, h4⟩
      · exact absurd hx (h d hd hr _)
    have hgen : ∀ (ds : List String) (sh : List ℕ), ds.length = sh.length → ds.Nodup → ("iter", n) ∈ ds.zip sh →
        (∀ p ∈ ds.zip sh, p.1 ≠ "iter" → (g p.1).getD 0 = p.2 ∧ 0 < p.2) →
        ∃ q, 0 < q ∧ sh.prod = n * q ∧ (ds.map fun k => (g k).getD 0).prod = (g "iter").getD 0 * q := by
      intro ds
      induction ds with
      | nil => intro sh _ _ h; simp at h
      | cons a r ih =>
        intro sh hl hnd hmem hoth
        cases sh with
        | nil => simp at hl
        | cons m sh =>
          simp only [List.zip_cons_cons, List.mem_cons] at hmem hoth
          simp only [List.nodup_cons] at hnd
          rcases hmem with h | h
          · obtain ⟨rfl, rfl⟩ := Prod.mk.inj h
            have hne : ∀ p ∈ r.zip sh, p.1 ≠ "iter" := by
              intro p hp hc
              exact hnd.1 (hc ▸ (List.of_mem_zip hp).1)
            have e1 : (r.map fun k => (g k).getD 0) = sh :=
              zip_map_getD (by simpa using hl) _ fun p hp => (hoth p (Or.inr hp) (hne p hp)).1
            refine ⟨sh.prod, ?_, by simp, by simp [e1]⟩
            refine Nat.pos_of_ne_zero (List.prod_ne_zero fun hx => ?_)
            have hsnd : (r.zip sh).map Prod.snd = sh := List.map_snd_zip (by simp at hl; omega)
            rw [← hsnd] at hx
            obtain ⟨p, hp, h0⟩ := List.mem_map.1 hx
            exact absurd h0 (hoth p (Or.inr hp) (hne p hp)).2.ne'
          · obtain ⟨q, h1, h2, h3⟩ := ih sh (by simpa using hl) hnd.2 h fun p hp => hoth p (Or.inr hp)
            have ha : a ≠ "iter" := fun hc => hnd.1 (hc ▸ (List.of_mem_zip h).1)
            obtain ⟨h4, h5⟩ := hoth (a, m) (Or.inl rfl) ha
            refine ⟨m * q, Nat.mul_pos h5 h1, ?_, ?_⟩
            · rw [List.prod_cons, h2]; ring
            · rw [List.map_cons, List.prod_cons, h3]
              simp only at h4
              rw [h4]; ring
    obtain ⟨q, hq, h2, h3⟩ := hgen ds d.shape hlen.symm (storedDims_nodup e) hm hother
    rw [h2, h3] at hp
    exact Nat.eq_of_mul_eq_mul_right hq hp
  exact hne ((rows d hd hr n hn).trans (rows d' hd' hr' n' hn').symm)

example : ∀ l : List (LoadedSample ℚ ℕ), loadH5 ["log_target", "sign"] (some ⟨[], [⟨"log_target", [0], []⟩, ⟨"sign", [2], [1, 1]⟩]⟩) ≠ .ok l := by
  have e1 : storedDims "log_target" = some ["iter"] := by decide
  have e2 : storedDims "sign" = some ["iter"] := by decide
  apply C130_rows_fail _ _ _ _ ⟨"log_target", [0], []⟩ ⟨"sign", [2], [1, 1]⟩ (by simp) (by simp) (by simp) (by simp) 0 2 ⟨_, e1, by simp⟩
    ⟨_, e2, by simp⟩ (by simp)
  · intro d hd _
    simp only [List.mem_cons, List.not_mem_nil, or_false] at hd
    rcases hd with rfl | rfl
    · exact ⟨_, e1, rfl, rfl⟩
    · exact ⟨_, e2, rfl, rfl⟩
  · intro d hd _ d' _ _ k n n' hk hx _
    simp only [List.mem_cons, List.not_mem_nil, or_false] at hd
    obtain ⟨ds, e, hm⟩ := hx
    rcases hd with rfl | rfl
    · simp only [e1, Option.some.injEq] at e; subst e; simp at hm; exact absurd hm.1 hk
    · simp only [e2, Option.some.injEq] at e; subst e; simp at hm; exact absurd hm.1 hk

/-! ## Together with the run that wrote the file -/

/-- The dataset of a sample with one number per row, as filled by a run. -/
def rowSet {V : Type} (name : String) (rows : List V) : H5Set V := ⟨name, [rows.length], rows⟩

theorem rowSet_shaped {V : Type} {name : String} (h : storedDims name = some ["iter"]) (rows : List V) : Spec.WellShaped (rowSet name rows) :=
  ⟨_, h, rfl, by simp [rowSet]⟩

/-- The samples of the Markov chain and neural network experiments that have one number per row. -/
def scalarSamples : List String := ["alpha", "beta", "kappa", "delta", "sigma", "sign", "log_target", "theta_acc", "log_destination_attraction_acc",
  "table_acc", "compute_time", "table_compute_time", "intensity_compute_time", "total_loss", "dest_attraction_ts_loss", "table_loss"]

theorem scalarSamples_dims : ∀ name ∈ scalarSamples, storedDims name = some ["iter"] := by decide

/-- Loading datasets of which two have different numbers of rows raises. -/
theorem rowSets_fail {S V : Type} (requested : List String) (sweep : List (String × S)) (rows : String → List V) (names : List String)
    (hs : ∀ n ∈ names, n ∈ scalarSamples) (a b : String) (ha : a ∈ names) (hb : b ∈ names) (hra : a ∈ requested) (hrb : b ∈ requested)
    (hne : (rows a).length ≠ (rows b).length) :
    ∀ l, loadH5 requested (some ⟨sweep, names.map fun n => rowSet n (rows n)⟩) ≠ .ok l := by
  apply C130_rows_fail requested ⟨sweep, names.map fun n => rowSet n (rows n)⟩ _ _ (rowSet a (rows a)) (rowSet b (rows b))
    (List.mem_map.2 ⟨a, ha, rfl⟩) (List.mem_map.2 ⟨b, hb, rfl⟩) hra hrb (rows a).length (rows b).length
    ⟨_, scalarSamples_dims a (hs a ha), by simp [rowSet]⟩ ⟨_, scalarSamples_dims b (hs b hb), by simp [rowSet]⟩ hne
  · intro d hd _
    obtain ⟨n, hn, rfl⟩ := List.mem_map.1 hd
    exact rowSet_shaped (scalarSamples_dims n (hs n hn)) _
  · intro d hd _ d' _ _ k n n' hk hx _
    obtain ⟨m, hm, rfl⟩ := List.mem_map.1 hd
    obtain ⟨ds, e, hz⟩ := hx
    rw [show (rowSet m (rows m)).name = m from rfl, scalarSamples_dims m (hs m hm)] at e
    obtain rfl := Option.some.inj e
    simp [rowSet] at hz
    exact absurd hz.1 hk

/-- C130: after a run of a Markov chain experiment that stored anything, its samples cannot be loaded together with the log target: the dataset
of the log target is there but has no rows. (Without a request for certain samples, all are loaded.) -/
theorem C130_log_target_false {S V : Type} (w : Writer V) (calls : Nat → List (String → Option V)) (N : Nat) (hl : w.rows "log_target" = [])
    (sweep : List (String × S)) (names requested : List String) (hs : ∀ n ∈ names, n ∈ scalarSamples) (h1 : "log_target" ∈ names)
    (h2 : "log_target" ∈ requested) (other : String) (h3 : other ∈ names) (h4 : other ∈ requested) (h5 : (w.run calls N).rows other ≠ []) :
    ∀ l, loadH5 requested (some ⟨sweep, names.map fun n => rowSet n ((w.run calls N).rows n)⟩) ≠ .ok l := by
  apply rowSets_fail requested sweep _ names hs "log_target" other h1 h3 h2 h4
  rw [C129_log_target_empty, hl]
  intro h
  exact h5 (List.length_eq_zero_iff.1 h.symm)

/-- C130: two samples written different numbers of times in each iteration cannot be loaded together after a run that stored anything. -/
theorem C130_steps_false {S V : Type} (w : Writer V) (calls : Nat → List (String → Option V)) (N : Nat) (ht : w.time = 0)
    (hx : w.exporting = true) (a b : String) (ha : a ∈ w.names ∧ a ∈ plainSamples ∧ w.rows a = []) (hb : b ∈ w.names ∧ b ∈ plainSamples ∧ w.rows b = [])
    (sa sb : ℕ) (hsa : ∀ t, ((calls t).filterMap (fun kw => kw a)).length = sa) (hsb : ∀ t, ((calls t).filterMap (fun kw => kw b)).length = sb)
    (hne : sa ≠ sb) (hdue : Spec.dueTimes w.start w.every N ≠ [])
    (sweep : List (String × S)) (names requested : List String) (hs : ∀ n ∈ names, n ∈ scalarSamples) (h1 : a ∈ names)
    (h2 : a ∈ requested) (h3 : b ∈ names) (h4 : b ∈ requested) :
    ∀ l, loadH5 requested (some ⟨sweep, names.map fun n => rowSet n ((w.run calls N).rows n)⟩) ≠ .ok l := by
  apply rowSets_fail requested sweep _ names hs a b h1 h3 h2 h4
  rw [C50_count_partial w calls a ht hx ha.1 (Or.inr ha.2.1) ha.2.2 N sa hsa, C50_count_partial w calls b ht hx hb.1 (Or.inr hb.2.1) hb.2.2 N sb hsb]
  intro h
  exact hne (Nat.eq_of_mul_eq_mul_left (List.length_pos_iff.2 hdue) h)

/-- C130: rows are numbered from one, so the number of a row is the iteration it was stored in exactly if every iteration was stored from the
first on (or none was). -/
theorem C130_iteration_iff (start every N : ℕ) (he : 0 < every) :
    (∀ r t : ℕ, (Spec.dueTimes start every N)[r]? = some t → (List.range' 1 (Spec.dueTimes start every N).length)[r]? = some t) ↔
      Spec.dueTimes start every N = [] ∨ start ≤ 1 ∧ every = 1 := by
  constructor
  · intro h
    by_cases hd : Spec.dueTimes start every N = []
    · exact Or.inl hd
    · right
      obtain ⟨t, r, e⟩ := List.exists_cons_of_ne_nil hd
      have h0 := h 0 t (by rw [e]; rfl)
      rw [e] at h0
      simp at h0
      have hm : t ∈ Spec.dueTimes start every N := by rw [e]; simp
      unfold Spec.dueTimes at hm
      simp only [List.mem_filter, Bool.and_eq_true, decide_eq_true_eq] at hm
      subst h0
      refine ⟨hm.2.1, ?_⟩
      exact Nat.dvd_one.1 hm.2.2
  · rintro (h | ⟨h1, rfl⟩) r t hr
    · rw [h] at hr; simp at hr
    · have : Spec.dueTimes start 1 N = List.range' 1 N := by
        unfold Spec.dueTimes
        apply List.filter_eq_self.2
        intro t ht
        rw [List.mem_range'] at ht
        obtain ⟨i, _, rfl⟩ := ht
        simp only [Bool.and_eq_true, decide_eq_true_eq, one_dvd, and_true]
        omega
      rw [this] at hr ⊢
      simpa using hr

theorem C130_iteration_false : ¬ ∀ start every N : ℕ, 0 < every → ∀ r t : ℕ, (Spec.dueTimes start every N)[r]? = some t →
    (List.range' 1 (Spec.dueTimes start every N).length)[r]? = some t := by
  intro h
  have := (C130_iteration_iff 1 2 4 (by decide)).1 (h 1 2 4 (by decide))
  revert this
  decide

/-- C130: together with the run: a sample stored once per iteration, with the schedule that stores every iteration, is loaded with the value
of iteration `i` at coordinate `i`. -/
theorem C130_run_partial {S V : Type} (w : Writer V) (calls : Nat → List (String → Option V)) (value : Nat → V) (N : Nat) (d : String)
    (ht : w.time = 0) (hx : w.exporting = true) (hn : d ∈ w.names) (hd : d ∈ plainSamples) (hr : w.rows d = []) (hs : d ∈ scalarSamples)
    (hone : ∀ t, (calls t).filterMap (fun kw => kw d) = [value t]) (h1 : w.start ≤ 1) (he : w.every = 1) :
    ∃ l : LoadedSample S V, loadH5 [d] (some ⟨[], [rowSet d ((w.run calls N).rows d)]⟩) = .ok [l] ∧
      l.coords = [("iter", (List.range' 1 N).map Sum.inr)] ∧ l.cells = (List.range' 1 N).map value := by
  have hrows := C50_one_per_iteration_partial w calls value d ht hx hn (Or.inr hd) hr hone N
  have hdue : Spec.dueTimes w.start w.every N = List.range' 1 N := by
    rw [he]
    unfold Spec.dueTimes
    apply List.filter_eq_self.2
    intro t ht
    rw [List.mem_range'] at ht
    obtain ⟨i, _, rfl⟩ := ht
    simp only [Bool.and_eq_true, decide_eq_true_eq, one_dvd, and_true]
    omega
  rw [hdue] at hrows
  have hdim := scalarSamples_dims d hs
  have hl := C130_loads_partial (S := S) [d] ⟨[], [rowSet d ((w.run calls N).rows d)]⟩
    (by intro x hx _; simp at hx; subst hx; exact rowSet_shaped hdim _) (by simp)
    (by
      intro x hx _ y hy _ k n n' h h'
      simp at hx hy
      subst hx
      subst hy
      exact Spec.Extent.unique (rowSet_shaped hdim _) h h')
  refine ⟨⟨d, Spec.properCoords [] (rowSet d ((w.run calls N).rows d)) ["iter"], (w.run calls N).rows d⟩, ?_, ?_, ?_⟩
  · rw [hl]
    simp [rowSet, hdim]
  · simp [Spec.properCoords, rowSet, hrows]
  · simp [hrows]

/-- A run that stores the sign of the draw, a log target and two computation times per iteration. -/
def exWriter : Writer ℕ := ⟨0, 1, 1, true, ["sign", "log_target", "table_compute_time"], fun _ => []⟩
def exCalls : Nat → List (String → Option ℕ) := fun t => [fun n => if n = "sign" then some (10 * t) else none, fun n => if n = "log_target" then some t else none,
  fun n => if n = "table_compute_time" then some 1 else none, fun n => if n = "table_compute_time" then some 2 else none]

example : exWriter.rows "log_target" = [] ∧ (exWriter.run exCalls 2).rows "sign" ≠ [] ∧ (∀ n ∈ ["log_target", "sign"], n ∈ scalarSamples) := by
  decide +kernel

example : (∀ t, ((exCalls t).filterMap (fun kw => kw "sign")).length = 1) ∧ (∀ t, (exCalls t).filterMap (fun kw => kw "sign") = [10 * t]) ∧
    (∀ t, ((exCalls t).filterMap (fun kw => kw "table_compute_time")).length = 2) ∧ Spec.dueTimes exWriter.start exWriter.every 2 ≠ [] ∧
    "sign" ∈ plainSamples ∧ "table_compute_time" ∈ plainSamples := by
  refine ⟨fun t => ?_, fun t => ?_, fun t => ?_, by decide, by decide, by decide⟩ <;> simp [exCalls]

/-- Nothing is ever written to the dataset of the total loss. -/
theorem total_loss_empty {V : Type} (w : Writer V) (batch dataSize : Nat) (kwargs : Nat → Nat → String → Option V) (E : Nat) :
    (w.epochs batch dataSize kwargs E).rows "total_loss" = w.rows "total_loss" := by
  have hwd : ∀ (u : Writer V) kw, (u.writeData kw).rows "total_loss" = u.rows "total_loss" := by
    intro u kw
    have : u.writes kw "total_loss" = none := by
      unfold Writer.writes
      rw [if_neg]
      simp [plainSamples]
    unfold Writer.writeData
    split
    · split
      · simp [this]
      · rfl
    · rfl
  have hup : ∀ (u : Writer V) t kw, (u.updateAndExport batch dataSize t kw).rows "total_loss" = u.rows "total_loss" := by
    intro u t kw
    unfold Writer.updateAndExport
    split
    · rw [hwd]
    · rfl
  have hep : ∀ (u : Writer V) kw, (u.epoch batch dataSize kw).rows "total_loss" = u.rows "total_loss" := by
    intro u kw
    unfold Writer.epoch
    induction List.range dataSize generalizing u with
    | nil => rfl
    | cons t ts ih => rw [List.foldl_cons, ih, hup]
  unfold Writer.epochs
  induction List.range E generalizing w with
  | nil => rfl
  | cons e es ih => rw [List.foldl_cons, ih, hep]

/-- C130: after a run of a neural network experiment that stored anything, its samples cannot be loaded together with the total loss. -/
theorem C130_loss_false {S V : Type} (w : Writer V) (batch dataSize : Nat) (kwargs : Nat → Nat → String → Option V) (E : Nat)
    (hl : w.rows "total_loss" = [])
    (sweep : List (String × S)) (names requested : List String) (hs : ∀ n ∈ names, n ∈ scalarSamples) (h1 : "total_loss" ∈ names)
    (h2 : "total_loss" ∈ requested) (other : String) (h3 : other ∈ names) (h4 : other ∈ requested)
    (h5 : (w.epochs batch dataSize kwargs E).rows other ≠ []) :
    ∀ l, loadH5 requested (some ⟨sweep, names.map fun n => rowSet n ((w.epochs batch dataSize kwargs E).rows n)⟩) ≠ .ok l := by
  apply rowSets_fail requested sweep _ names hs "total_loss" other h1 h3 h2 h4
  rw [total_loss_empty, hl]
  intro h
  exact h5 (List.length_eq_zero_iff.1 h.symm)

example : let w : Writer ℕ := ⟨0, 1, 1, true, ["loss", "compute_time"], fun _ => []⟩
    w.rows "total_loss" = [] ∧ (w.epochs 1 1 (fun e _ n => if n = "compute_time" then some e else none) 2).rows "compute_time" ≠ [] ∧
      (∀ n ∈ ["compute_time", "total_loss"], n ∈ scalarSamples) := by
  decide +kernel

/-- C130: a swept setting that is not in the table of coordinate types, for instance `epsilon` or `dt`, makes every load fail. -/
theorem C130_unknown_sweep {S V : Type} (requested : List String) (f : H5Run S V) (hw : ∀ d ∈ f.sets, d.name ∈ requested → Spec.WellShaped d)
    (h : ∃ e ∈ f.sweep, e.1 ∉ coordinateNames) : loadH5 requested (some f) = .error .unknownCoordinate := by
  obtain ⟨g, hg⟩ := readExtents_some (f.sets.filter fun d => d.name ∈ requested) (by
    intro d hd
    obtain ⟨h1, h2⟩ := List.mem_filter.1 hd
    exact hw d h1 (by simpa using h2)) (fun _ => none)
  simp only [loadH5, hg]
  rw [if_neg]
  obtain ⟨e, he, hn⟩ := h
  intro hc
  exact hn (by simpa using List.all_eq_true.1 hc e he)

example : "epsilon" ∉ coordinateNames ∧ "dt" ∉ coordinateNames ∧ "theta_steps" ∉ coordinateNames ∧ "alpha" ∈ coordinateNames := by decide

/-- C130: so sweeps over the time step, the noise or the numbers of steps cannot be loaded. -/
theorem C130_sweep_names_false {S V : Type} (requested : List String) (f : H5Run S V)
    (hw : ∀ d ∈ f.sets, d.name ∈ requested → Spec.WellShaped d) (v : S) (h : ∃ n ∈ ["epsilon", "dt", "theta_steps", "destination_attraction_steps"], (n, v) ∈ f.sweep) :
    ∀ l, loadH5 requested (some f) ≠ .ok l := by
  obtain ⟨n, hn, hm⟩ := h
  intro l hl
  rw [C130_unknown_sweep requested f hw ⟨_, hm, by
    have : ∀ n ∈ ["epsilon", "dt", "theta_steps", "destination_attraction_steps"], n ∉ coordinateNames := by decide
    exact this n hn⟩] at hl
  simp at hl

example : "dt" ∈ ["epsilon", "dt", "theta_steps", "destination_attraction_steps"] ∧ "alpha" ∈ coordinateNames := by decide

/-- C130: the dimensions of a loaded sample, in order, after the swept settings: iteration, origin and destination for tables and intensities;
iteration, destination and time for attractions; the two parameter grids, without iteration, for the results of the analyses; only the iteration
for everything else that can be stored. -/
theorem C130_dims {S V : Type} (requested : List String) (f : H5Run S V) (hw : ∀ d ∈ f.sets, d.name ∈ requested → Spec.WellShaped d)
    (hs : ∀ e ∈ f.sweep, e.1 ∈ coordinateNames ∧ e.1 ∉ ["iter", "origin", "destination", "time", "alpha_range", "beta_range"])
    (hagree : ∀ d ∈ f.sets, d.name ∈ requested → ∀ d' ∈ f.sets, d'.name ∈ requested → ∀ k n n', Spec.Extent d k n → Spec.Extent d' k n' → n = n')
    (l : List (LoadedSample S V)) (hl : loadH5 requested (some f) = .ok l) (x : LoadedSample S V) (hx : x ∈ l) :
    ∃ dims : List String, x.coords.map (·.1) = (f.sweep.filter fun e => e.1 ≠ x.name).map (·.1) ++ dims ∧
      (x.name ∈ ["table", "intensity"] → dims = ["iter", "origin", "destination"]) ∧
      (x.name = "log_destination_attraction" → dims = ["iter", "destination", "time"]) ∧
      (x.name ∈ ["r2", "log_posterior_approximation"] → dims = ["alpha_range", "beta_range"]) ∧
      (x.name ∉ ["table", "intensity", "log_destination_attraction", "r2", "log_posterior_approximation"] → dims = ["iter"]) := by
  rw [C130_loads_partial requested f hw hs hagree] at hl
  obtain rfl := Except.ok.inj hl
  obtain ⟨d, hd, rfl⟩ := List.mem_map.1 hx
  obtain ⟨hd1, hd2⟩ := List.mem_filter.1 hd
  obtain ⟨ds, e1, e2, e3⟩ := hw d hd1 (by simpa using hd2)
  refine ⟨ds, ?_, ?_, ?_, ?_, ?_⟩
  · simp only [e1, Option.getD_some, Spec.properCoords, List.map_append, List.map_map]
    congr 1
    exact map_fst_zip_of_le e2.ge
  · intro hn
    have : ∀ n ∈ ["table", "intensity"], storedDims n = some ["iter", "origin", "destination"] := by decide
    rw [this _ hn] at e1
    exact (Option.some.inj e1).symm
  · intro hn
    have : storedDims "log_destination_attraction" = some ["iter", "destination", "time"] := by decide
    simp only at hn
    rw [hn, this] at e1
    exact (Option.some.inj e1).symm
  · intro hn
    have : ∀ n ∈ ["r2", "log_posterior_approximation"], storedDims n = some ["alpha_range", "beta_range"] := by decide
    rw [this _ hn] at e1
    exact (Option.some.inj e1).symm
  · intro hn
    simp only [List.mem_cons, List.not_mem_nil, or_false, not_or] at hn
    obtain ⟨n1, n2, n3, n4, n5⟩ := hn
    unfold storedDims outSchema at e1
    rw [if_neg (by simp [n1, n2]), if_neg n3, if_neg (by simp [n4, n5])] at e1
    split_ifs at e1
    · simp at e1
    · simpa using e1.symm
    · simp at e1

end GeNSIT
