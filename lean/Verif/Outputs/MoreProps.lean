import Verif.Outputs.Props

/-!
# More about index slices (C49) and the written samples (C50)
-/

set_option linter.unusedSimpArgs false
set_option linter.unusedVariables false

namespace GeNSIT

open Spec

theorem takeAt_map (xs : List Int) (f : Nat → Nat) (n : Nat) (h : ∀ r, r < n → f r < xs.length) (r : Nat) :
    (takeAt xs ((List.range n).map f))[r]? = if r < n then xs[f r]? else none := by
  have : takeAt xs ((List.range n).map f) = (List.range n).pmap (fun r (hr : r < n) => xs[f r]'(h r hr)) (by simp) := by
    unfold takeAt
    rw [List.filterMap_map]
    have gen : ∀ l : List Nat, ∀ hl : ∀ r ∈ l, r < n, l.filterMap ((fun i => xs[i]?) ∘ f) =
        l.pmap (fun r (hr : r < n) => xs[f r]'(h r hr)) hl := by
      intro l
      induction l with
      | nil => intro _; rfl
      | cons a l ih =>
        intro hl
        have ha := hl a (by simp)
        rw [List.pmap_cons, List.filterMap_cons]
        simp only [Function.comp_apply, List.getElem?_eq_getElem (h a ha)]
        exact congrArg _ (ih _)
    exact gen _ _
  rw [this]
  by_cases hr : r < n
  · rw [if_pos hr, List.getElem?_eq_getElem (by simpa using hr), List.getElem_pmap, List.getElem?_eq_getElem (h r hr)]
    simp
  · rw [if_neg hr, List.getElem?_eq_none (by simpa using hr)]

/-- **C49.**  The sliced sample, coordinate by coordinate: along the sliced dimension the coordinate of rank `r` is the one that
had rank `b + k·r`, there are `min(m, ⌈(total - b)/k⌉)` of them, and nothing changes when that number is zero. -/
theorem C49_kept_coordinates (d : String) (b k : Nat) (hk : 0 < k) (m : Option Nat) (c : Coords) (hnd : (c.map (·.1)).Nodup)
    (xs : List Int) (hd : (d, xs) ∈ c) (hne : ∀ e ∈ c, e.2 ≠ []) :
    ∃ c', sliceLoop [⟨[d], b, k, m⟩] [] c = some c' ∧ c'.map (·.1) = c.map (·.1) ∧
      (∀ e ∈ c, e.1 ≠ d → e ∈ c') ∧
      ∃ ys, (d, ys) ∈ c' ∧
        ((b < xs.length ∧ m ≠ some 0 →
          (∀ r, ys[r]? = if (∀ m', m = some m' → r < m') then xs[b + k * r]? else none)) ∧
        (¬ (b < xs.length ∧ m ≠ some 0) → ys = xs)) := by
  have hdm : d ∈ c.map (·.1) := List.mem_map.2 ⟨_, hd, rfl⟩
  obtain ⟨c', h1, h2, h3, h4, h5⟩ := C49_one_slice d b k hk m c hnd hdm hne
  have hxs : dimCoords d c = xs := dimCoords_of_mem c hnd d xs hd
  have hnd' : (c'.map (·.1)).Nodup := by rw [h2]; exact hnd
  have hdm' : d ∈ c'.map (·.1) := by rw [h2]; exact hdm
  refine ⟨c', h1, h2, ?_, ?_⟩
  · intro e he hed
    have hem : e.1 ∈ c'.map (·.1) := by rw [h2]; exact List.mem_map.2 ⟨e, he, rfl⟩
    obtain ⟨⟨d', zs⟩, hm', hd'⟩ := List.mem_map.1 hem
    simp only at hd'
    subst hd'
    have e1 := dimCoords_of_mem c' hnd' _ zs hm'
    have e2 := dimCoords_of_mem c hnd _ e.2 he
    have := h3 e.1 hed
    rw [e1, e2] at this
    rw [this] at hm'
    exact hm'
  obtain ⟨⟨d', ys⟩, hm', hd'⟩ := List.mem_map.1 hdm'
  simp only at hd'
  subst hd'
  have hys := dimCoords_of_mem c' hnd' _ ys hm'
  rw [hys, hxs] at h4
  rw [hxs] at h5
  obtain ⟨n, hn1, hn2⟩ := sliceIndices_eq b k m xs.length
  have hlt : ∀ r, r < n → b + k * r < xs.length := by
    intro r hr
    have hmem : b + k * r ∈ sliceIndices b k m xs.length := by
      rw [hn1]; exact List.mem_map.2 ⟨r, List.mem_range.2 hr, rfl⟩
    exact (((C49_indices b k hk m xs.length).2 _).1 hmem).2.1
  have hlt' : ∀ r, b + k * r < xs.length → (∀ m', m = some m' → r < m') → r < n := by
    intro r hr hrm
    have hmem : b + k * r ∈ sliceIndices b k m xs.length := by
      rw [(C49_indices b k hk m xs.length).2]
      refine ⟨by omega, hr, ⟨r, by omega⟩, ?_⟩
      intro m' hm'
      have : b + k * r - b = k * r := by omega
      rw [this, Nat.mul_div_cancel_left _ hk]
      exact hrm m' hm'
    rw [hn1] at hmem
    obtain ⟨r', hr', he⟩ := List.mem_map.1 hmem
    have : k * r' = k * r := by omega
    have := Nat.eq_of_mul_eq_mul_left hk this
    subst this
    exact List.mem_range.1 hr'
  have hnm : ∀ r, r < n → ∀ m', m = some m' → r < m' := by
    intro r hr m' hm'
    have hmem : b + k * r ∈ sliceIndices b k m xs.length := by
      rw [hn1]; exact List.mem_map.2 ⟨r, List.mem_range.2 hr, rfl⟩
    have := (((C49_indices b k hk m xs.length).2 _).1 hmem).2.2.2 m' hm'
    have e : b + k * r - b = k * r := by omega
    rwa [e, Nat.mul_div_cancel_left _ hk] at this
  have hget := takeAt_map xs (fun r => b + k * r) n hlt
  rw [← hn1] at hget
  refine ⟨ys, hm', ?_, ?_⟩
  · rintro ⟨hb, hm0⟩ 
    have h0 : 0 < n := hlt' 0 (by simpa using hb) (by
      intro m' e; rcases Nat.eq_zero_or_pos m' with h | h
      · subst h; exact absurd e hm0
      · exact h)
    have hnil : takeAt xs (sliceIndices b k m xs.length) ≠ [] := by
      intro h
      have h6 := hget 0
      rw [h, if_pos h0, List.getElem?_eq_getElem (hlt 0 h0)] at h6
      simp at h6
    rw [h4 hnil]
    intro r
    rw [hget r]
    by_cases hrm : ∀ m', m = some m' → r < m'
    · rw [if_pos hrm]
      by_cases hr : r < n
      · rw [if_pos hr]
      · rw [if_neg hr]
        by_cases hl : b + k * r < xs.length
        · exact absurd (hlt' r hl hrm) hr
        · rw [List.getElem?_eq_none (by omega)]
    · rw [if_neg hrm, if_neg (fun hr => hrm (hnm r hr))]
  · intro hno
    have hn0 : n = 0 := by
      rcases Nat.eq_zero_or_pos n with h | h
      · exact h
      · exfalso
        refine hno ⟨by have := hlt 0 h; omega, ?_⟩
        intro e
        exact absurd (hnm 0 h 0 e) (lt_irrefl 0)
    have hnil : takeAt xs (sliceIndices b k m xs.length) = [] := by
      rw [hn1, hn0]; rfl
    have hc := h5 hnil
    rw [hc, hxs] at hys
    exact hys.symm

example : sliceLoop [⟨["iter"], 1, 2, some 2⟩] [] [("iter", [10, 11, 12, 13, 14, 15]), ("x", [0])] =
    some [("iter", [11, 13]), ("x", [0])] := by decide +kernel

/-- **C49.**  Whatever slices are applied, a result that is returned has no empty dimension. -/
theorem C49_never_empty (slices : List IndexSlice) : ∀ (sliced : List String) (c c' : Coords),
    sliceLoop slices sliced c = some c' → ∀ e ∈ c', e.2 ≠ [] := by
  induction slices with
  | nil =>
    intro sliced c c' h e he
    unfold sliceLoop at h
    split at h
    · next hall =>
      cases h
      have := List.all_eq_true.1 hall e he
      simpa using this
    · cases h
  | cons s ss ih =>
    intro sliced c c' h
    unfold sliceLoop at h
    split at h
    · exact ih _ _ _ h
    · split at h
      · cases h
      · split at h
        · exact ih _ _ _ h
        · dsimp only at h
          split at h
          · exact ih _ _ _ h
          · exact ih _ _ _ h
    · cases h

/-- **C50.**  Every one of the ten sample names the documentation lists is written, exactly as it is passed, when its dataset
exists, the experiment exports and the iteration is due. -/
theorem C50_known_samples {V : Type} (w : Writer V) (kwargs : String → Option V) (v : V) (hx : w.exporting = true)
    (hs : w.start ≤ w.time) (he : w.every ∣ w.time) (name : String)
    (hname : name ∈ ["log_destination_attraction", "sign", "table", "intensity", "theta_acc", "log_destination_attraction_acc",
      "table_acc", "compute_time", "table_compute_time", "intensity_compute_time", "theta"]) (hn : name ∈ w.names)
    (hk : kwargs name = some v) : (w.writeData kwargs).rows name = w.rows name ++ [v] := by
  have hw : w.writes kwargs name = some v := by
    unfold Writer.writes
    have : (name == "loss" || name == "theta" || plainSamples.contains name) = true := by
      revert hname
      simp only [List.mem_cons, List.not_mem_nil, or_false]
      rintro (rfl | rfl | rfl | rfl | rfl | rfl | rfl | rfl | rfl | rfl | rfl) <;> decide
    rw [this, Bool.true_and, if_pos (by simpa using hn), hk]
  unfold Writer.writeData
  rw [if_pos hx, if_pos ⟨hs, Nat.mod_eq_zero_of_dvd he⟩]
  simp only [hw]

end GeNSIT
