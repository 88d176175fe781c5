import Verif.Plot.Axes
import Mathlib.Tactic.FieldSimp
import Mathlib.Tactic.Ring

/-!
# C145: discrete axes
-/

namespace GeNSIT

/-- What a reader of the axis sees: a tick at position `p` with the label `x`. -/
def Spec.TickAt (t : Ticks) (p : ℚ) (x : String) : Prop :=
  ∃ n : ℕ, t.labels[n]? = some x ∧ t.locations[n]? = some p

/-! ### Lookup in the map of locations -/

theorem lookup_inner (a : String) (f : ℕ → ℚ) (y : String) (ms : List String) : ∀ k : ℕ, y ∈ ms →
    ((ms.zipIdx k).map fun (b : String × ℕ) => ((a, some b.1), f b.2)).lookup (a, some y) =
      some (f (k + ms.idxOf y)) := by
  induction ms with
  | nil => intro k h; simp at h
  | cons m rest ih =>
    intro k h
    simp only [List.zipIdx_cons, List.map_cons]
    by_cases hg : y = m
    · subst hg; simp [List.lookup]
    · have hb : ((a, some y) == (a, some m)) = false := by simpa using hg
      have hm : y ∈ rest := by
        rcases List.mem_cons.mp h with h | h
        · exact absurd h hg
        · exact h
      simp only [List.lookup, hb]
      rw [ih (k + 1) hm, List.idxOf_cons_ne _ (Ne.symm hg)]
      congr 2
      omega

theorem lookup_inner_other (a x : String) (h : x ≠ a) (f : ℕ → ℚ) (o : Option String) (ms : List String) : ∀ k : ℕ,
    ((ms.zipIdx k).map fun (b : String × ℕ) => ((a, some b.1), f b.2)).lookup (x, o) = none := by
  induction ms with
  | nil => intro k; rfl
  | cons m rest ih =>
    intro k
    simp only [List.zipIdx_cons, List.map_cons]
    have hb : ((x, o) == (a, some m)) = false := by simp [h]
    simp only [List.lookup, hb]
    exact ih (k + 1)

theorem lookup_outer (g : ℕ → ℕ → ℚ) (x y : String) (ms : List String) (hy : y ∈ ms) (u : List String) : ∀ k : ℕ, x ∈ u →
    ((u.zipIdx k).flatMap fun (a : String × ℕ) =>
      ms.zipIdx.map fun (b : String × ℕ) => ((a.1, some b.1), g b.2 a.2)).lookup (x, some y) =
        some (g (ms.idxOf y) (k + u.idxOf x)) := by
  induction u with
  | nil => intro k h; simp at h
  | cons a rest ih =>
    intro k h
    simp only [List.zipIdx_cons, List.flatMap_cons, List.lookup_append]
    by_cases hg : x = a
    · subst hg
      rw [lookup_inner x (fun n => g n k) y ms 0 hy]
      simp
    · have hm : x ∈ rest := by
        rcases List.mem_cons.mp h with h | h
        · exact absurd h hg
        · exact h
      rw [lookup_inner_other a x hg (fun n => g n k) (some y) ms 0, ih (k + 1) hm, List.idxOf_cons_ne _ (Ne.symm hg)]
      simp only [Option.none_or]
      congr 2
      omega

theorem lookup_single (f : ℕ → ℚ) (x : String) (u : List String) : ∀ k : ℕ, x ∈ u →
    ((u.zipIdx k).flatMap fun (a : String × ℕ) => [((a.1, (none : Option String)), f a.2)]).lookup (x, none) =
      some (f (k + u.idxOf x)) := by
  induction u with
  | nil => intro k h; simp at h
  | cons a rest ih =>
    intro k h
    simp only [List.zipIdx_cons, List.flatMap_cons, List.cons_append, List.nil_append]
    by_cases hg : x = a
    · subst hg; simp [List.lookup]
    · have hb : ((x, (none : Option String)) == (a, none)) = false := by simpa using hg
      have hm : x ∈ rest := by
        rcases List.mem_cons.mp h with h | h
        · exact absurd h hg
        · exact h
      simp only [List.lookup, hb]
      rw [ih (k + 1) hm, List.idxOf_cons_ne _ (Ne.symm hg)]
      congr 2
      omega

theorem lookup_single_some (f : ℕ → ℚ) (x y : String) (u : List String) : ∀ k : ℕ,
    ((u.zipIdx k).flatMap fun (a : String × ℕ) => [((a.1, (none : Option String)), f a.2)]).lookup (x, some y) = none := by
  induction u with
  | nil => intro k; rfl
  | cons a rest ih =>
    intro k
    simp only [List.zipIdx_cons, List.flatMap_cons, List.cons_append, List.nil_append]
    have hb : ((x, some y) == (a, none)) = false := by simp
    simp only [List.lookup, hb]
    exact ih (k + 1)

theorem firstsOf_ne_nil {l : List String} (h : l ≠ []) : firstsOf l ≠ [] := by
  obtain ⟨a, ha⟩ := List.exists_mem_of_ne_nil _ h
  exact List.ne_nil_of_mem ((mem_firstsOf l a).mpr ha)

/-! ### Labels and locations -/

theorem tickLocations_get (s d : ℚ) (L n : ℕ) (p : ℚ) :
    (tickLocations s d L)[n]? = some p ↔ n < L ∧ s + (n : ℚ) * d = p := by
  unfold tickLocations
  rw [List.getElem?_map]
  by_cases h : n < L
  · simp [h]
  · rw [List.getElem?_eq_none (by simp; omega)]
    simp [h]

theorem replicate_get (u : List String) (r n : ℕ) (hn : n < r * u.length) :
    (List.replicate r u).flatten[n]? = u[n % u.length]? := by
  induction r generalizing n with
  | zero => simp at hn
  | succ r ih =>
    rw [List.replicate_succ, List.flatten_cons]
    by_cases h : n < u.length
    · rw [List.getElem?_append_left h, Nat.mod_eq_of_lt h]
    · push Not at h
      rw [List.getElem?_append_right h, ih (n - u.length) (by rw [Nat.succ_mul] at hn; omega),
        Nat.mod_eq_sub_mod h]

/-- The shape of a successful computation with major and minor entries. -/
theorem ticks_both (majors minors : List String) (hM : majors ≠ []) (hN : minors ≠ []) (s0 d0 s1 d1 : ℚ) (h0 : d0 ≠ 0)
    (h1 : d1 ≠ 0) (more : List (Option (ℚ × ℚ))) :
    discreteTicks majors (some minors) (some (some (s0, d0) :: some (s1, d1) :: more)) =
      some ⟨⟨firstsOf majors, (List.replicate (firstsOf minors).length (firstsOf majors)).flatten,
          tickLocations s0 d0 ((firstsOf minors).length * (firstsOf majors).length)⟩,
        some ⟨firstsOf minors, firstsOf minors, tickLocations s1 d1 (firstsOf minors).length⟩,
        tickHashmap (firstsOf majors) (some (firstsOf minors)) (some (some (s0, d0) :: some (s1, d1) :: more))⟩ := by
  simp [discreteTicks, tickType, firstsOf_ne_nil hM, firstsOf_ne_nil hN, h0, h1, TickResult.count]

theorem position_both (majors minors : List String) (s0 d0 s1 d1 : ℚ) (more : List (Option (ℚ × ℚ))) (a b : String)
    (ha : a ∈ majors) (hb : b ∈ minors) (hnone : b ≠ "none") :
    tickPosition (tickHashmap (firstsOf majors) (some (firstsOf minors)) (some (some (s0, d0) :: some (s1, d1) :: more)))
        a (some b) =
      some (((firstsOf minors).idxOf b : ℕ) * d1 + ((firstsOf majors).idxOf a : ℕ) * d0 + s0) := by
  have h := lookup_outer (fun (k j : ℕ) => (k : ℚ) * d1 + (j : ℚ) * d0 + s0) a b (firstsOf minors)
    ((mem_firstsOf minors b).mpr hb) (firstsOf majors) 0 ((mem_firstsOf majors a).mpr ha)
  simp only [tickPosition, hnone, if_false]
  simp only [tickHashmap]
  rw [h]
  simp

/-- The tick at a position carries the label of entry `j` exactly when the position is a whole number of steps from the
start that is `j` modulo the number of labels. -/
theorem tickAt_iff (u : List String) (hu : u.Nodup) (s d : ℚ) (r : ℕ) (p : ℚ) (x : String) (hx : x ∈ u) :
    Spec.TickAt ⟨u, (List.replicate r u).flatten, tickLocations s d (r * u.length)⟩ p x ↔
      ∃ n : ℕ, n < r * u.length ∧ n % u.length = u.idxOf x ∧ s + (n : ℚ) * d = p := by
  have hpos : 0 < u.length := List.length_pos_of_mem hx
  constructor
  · rintro ⟨n, h1, h2⟩
    obtain ⟨hn, hp⟩ := (tickLocations_get _ _ _ _ _).mp h2
    simp only at h1
    rw [replicate_get u r n hn] at h1
    refine ⟨n, hn, ?_, hp⟩
    obtain ⟨hlt, he⟩ := List.getElem?_eq_some_iff.mp h1
    rw [← he, hu.idxOf_getElem]
  · rintro ⟨n, hn, hm, hp⟩
    refine ⟨n, ?_, (tickLocations_get _ _ _ _ _).mpr ⟨hn, hp⟩⟩
    simp only
    rw [replicate_get u r n hn, hm]
    exact List.getElem?_eq_some_iff.mpr ⟨List.idxOf_lt_length_iff.mpr hx, List.getElem_idxOf _⟩

/-! ## C145 -/

/-- Without minor entries every record is drawn at a tick that carries its own label, and different entries are drawn at
different positions. -/
theorem C145_major_only (majors : List String) (s d : ℚ) (hd : d ≠ 0) (more : List (Option (ℚ × ℚ))) (t : DiscreteTicks)
    (ht : discreteTicks majors none (some (some (s, d) :: more)) = some t) :
    (∀ a ∈ majors, ∃ p, tickPosition t.hashmap a none = some p ∧ Spec.TickAt t.major p a) ∧
    ∀ a ∈ majors, ∀ b ∈ majors, tickPosition t.hashmap a none = tickPosition t.hashmap b none → a = b := by
  by_cases hM : majors = []
  · subst hM; simp
  have he : discreteTicks majors none (some (some (s, d) :: more)) =
      some ⟨⟨firstsOf majors, (List.replicate 1 (firstsOf majors)).flatten,
          tickLocations s d (1 * (firstsOf majors).length)⟩, none,
        tickHashmap (firstsOf majors) none (some (some (s, d) :: more))⟩ := by
    simp [discreteTicks, tickType, firstsOf_ne_nil hM, hd, TickResult.count]
  rw [ht] at he; cases he
  have hpos : ∀ a ∈ majors, tickPosition (tickHashmap (firstsOf majors) none (some (some (s, d) :: more))) a none =
      some (((firstsOf majors).idxOf a : ℕ) * d + s) := by
    intro a ha
    have h := lookup_single (fun j : ℕ => (j : ℚ) * d + s) a (firstsOf majors) 0 ((mem_firstsOf majors a).mpr ha)
    simp only [tickPosition, tickHashmap]
    rw [h]; simp
  refine ⟨fun a ha => ⟨_, hpos a ha, ?_⟩, ?_⟩
  · have hm := (mem_firstsOf majors a).mpr ha
    refine (tickAt_iff (firstsOf majors) (firstsOf_nodup majors) s d 1 _ a hm).mpr
      ⟨(firstsOf majors).idxOf a, ?_, ?_, by ring⟩
    · rw [Nat.one_mul]; exact List.idxOf_lt_length_iff.mpr hm
    · exact Nat.mod_eq_of_lt (List.idxOf_lt_length_iff.mpr hm)
  · intro a ha b hb h
    rw [hpos a ha, hpos b hb] at h
    have h' : (((firstsOf majors).idxOf a : ℕ) : ℚ) = ((firstsOf majors).idxOf b : ℕ) := by
      have h2 := Option.some.inj h
      exact mul_right_cancel₀ hd (by linarith)
    exact (List.idxOf_inj ((mem_firstsOf majors a).mpr ha)).mp (by exact_mod_cast h')

example : ∃ t, discreteTicks ["a", "a", "b"] none (some [some (1, 1)]) = some t ∧
    tickPosition t.hashmap "b" none = some 2 := ⟨_, rfl, by decide +kernel⟩

/-- With major and minor entries, every record is drawn at a tick carrying its own major label exactly when the minor step
is the number of different major entries times the major step. -/
theorem C145_labelled_iff (majors minors : List String) (s0 d0 s1 d1 : ℚ) (h0 : d0 ≠ 0) (h1 : d1 ≠ 0)
    (more : List (Option (ℚ × ℚ))) (hM : majors ≠ []) (hnone : "none" ∉ minors)
    (htwo : ∃ b ∈ minors, ∃ c ∈ minors, b ≠ c) (t : DiscreteTicks)
    (ht : discreteTicks majors (some minors) (some (some (s0, d0) :: some (s1, d1) :: more)) = some t) :
    (∀ a ∈ majors, ∀ b ∈ minors, ∃ p, tickPosition t.hashmap a (some b) = some p ∧ Spec.TickAt t.major p a) ↔
      d1 = ((firstsOf majors).length : ℚ) * d0 := by
  obtain ⟨b0, hb0, c0, hc0, hbc⟩ := htwo
  have hN : minors ≠ [] := List.ne_nil_of_mem hb0
  rw [ticks_both majors minors hM hN s0 d0 s1 d1 h0 h1 more] at ht
  cases ht
  set u := firstsOf majors with hu
  set w := firstsOf minors with hw
  have hnd := firstsOf_nodup majors
  have hwnd := firstsOf_nodup minors
  have hub : ∀ b ∈ minors, b ≠ "none" := fun b hb e => hnone (e ▸ hb)
  have hupos : 0 < u.length := List.length_pos_of_ne_nil (firstsOf_ne_nil hM)
  have hw2 : 2 ≤ w.length := by
    by_contra hlt
    have hb' := List.idxOf_lt_length_iff.mpr ((mem_firstsOf minors b0).mpr hb0)
    have hc' := List.idxOf_lt_length_iff.mpr ((mem_firstsOf minors c0).mpr hc0)
    have : (firstsOf minors).idxOf b0 = (firstsOf minors).idxOf c0 := by rw [← hw] at hb' hc' ⊢; omega
    exact hbc ((List.idxOf_inj ((mem_firstsOf minors b0).mpr hb0)).mp this)
  have key : ∀ a ∈ majors, ∀ b ∈ minors,
      ((∃ p, tickPosition (tickHashmap u (some w) (some (some (s0, d0) :: some (s1, d1) :: more))) a (some b) = some p ∧
        Spec.TickAt ⟨u, (List.replicate w.length u).flatten, tickLocations s0 d0 (w.length * u.length)⟩ p a) ↔
      ∃ n : ℕ, n < w.length * u.length ∧ n % u.length = u.idxOf a ∧
        (n : ℚ) * d0 = (w.idxOf b : ℕ) * d1 + (u.idxOf a : ℕ) * d0) := by
    intro a ha b hb
    have hp := position_both majors minors s0 d0 s1 d1 more a b ha hb (hub b hb)
    constructor
    · rintro ⟨p, hp', ht'⟩
      rw [hp] at hp'; cases hp'
      obtain ⟨n, hn, hm, he⟩ := (tickAt_iff u hnd s0 d0 w.length _ a ((mem_firstsOf majors a).mpr ha)).mp ht'
      exact ⟨n, hn, hm, by linarith⟩
    · rintro ⟨n, hn, hm, he⟩
      exact ⟨_, hp, (tickAt_iff u hnd s0 d0 w.length _ a ((mem_firstsOf majors a).mpr ha)).mpr
        ⟨n, hn, hm, by linarith⟩⟩
  constructor
  · intro hall
    -- the first major entry, with the second and with the last minor entry
    obtain ⟨a, ha⟩ : ∃ a, u[0]? = some a := ⟨u[0], List.getElem?_eq_getElem hupos⟩
    have hau : a ∈ u := List.mem_of_getElem? ha
    have hai : u.idxOf a = 0 := by
      obtain ⟨hlt, he⟩ := List.getElem?_eq_some_iff.mp ha
      rw [← he, hnd.idxOf_getElem]
    have get : ∀ k : ℕ, k < w.length → ∃ n : ℕ, n < w.length * u.length ∧ n % u.length = 0 ∧ (n : ℚ) * d0 = (k : ℚ) * d1 := by
      intro k hk
      have hbm : w[k] ∈ minors := (mem_firstsOf minors _).mp (List.getElem_mem hk)
      obtain ⟨n, hn, hm, he⟩ := (key a ((mem_firstsOf majors a).mp hau) _ hbm).mp
        (hall a ((mem_firstsOf majors a).mp hau) _ hbm)
      rw [hwnd.idxOf_getElem, hai] at he
      rw [hai] at hm
      exact ⟨n, hn, hm, by simpa using he⟩
    obtain ⟨n1, hn1, hm1, he1⟩ := get 1 (by omega)
    obtain ⟨n2, hn2, hm2, he2⟩ := get (w.length - 1) (by omega)
    obtain ⟨q, rfl⟩ := Nat.dvd_of_mod_eq_zero hm1
    simp only [Nat.cast_one, one_mul] at he1
    have hq0 : q ≠ 0 := by
      rintro rfl
      apply h1
      rw [← he1]; simp
    have hn2' : n2 = (w.length - 1) * (u.length * q) := by
      have : (n2 : ℚ) * d0 = (((w.length - 1) * (u.length * q) : ℕ) : ℚ) * d0 := by
        rw [he2, ← he1]; push_cast; ring
      exact_mod_cast mul_right_cancel₀ h0 this
    have hq1 : q = 1 := by
      by_contra hne
      have hq2 : 2 ≤ q := by omega
      rw [hn2'] at hn2
      have h3 : (w.length - 1) * (u.length * 2) ≤ (w.length - 1) * (u.length * q) :=
        Nat.mul_le_mul_left _ (Nat.mul_le_mul_left _ hq2)
      have h4 : (w.length - 1) * (u.length * 2) < w.length * u.length := lt_of_le_of_lt h3 hn2
      have h5 : (w.length - 1) * (u.length * 2) = ((w.length - 1) * 2) * u.length := by ring
      rw [h5] at h4
      have h6 := lt_of_mul_lt_mul_right h4 (Nat.zero_le _)
      omega
    rw [← he1, hq1]
    push_cast; ring
  · intro hd a ha b hb
    refine (key a ha b hb).mpr ⟨w.idxOf b * u.length + u.idxOf a, ?_, ?_, ?_⟩
    · have hb' : w.idxOf b < w.length := List.idxOf_lt_length_iff.mpr ((mem_firstsOf minors b).mpr hb)
      have ha' : u.idxOf a < u.length := List.idxOf_lt_length_iff.mpr ((mem_firstsOf majors a).mpr ha)
      calc w.idxOf b * u.length + u.idxOf a < w.idxOf b * u.length + u.length := by omega
        _ = (w.idxOf b + 1) * u.length := by ring
        _ ≤ w.length * u.length := Nat.mul_le_mul_right _ hb'
    · have ha' : u.idxOf a < u.length := List.idxOf_lt_length_iff.mpr ((mem_firstsOf majors a).mpr ha)
      rw [Nat.add_comm, Nat.add_mul_mod_self_right, Nat.mod_eq_of_lt ha']
    · rw [hd]; push_cast; ring

/-- Different records (by major or minor entry) are drawn at different positions when the minor step is at least the number
of different major entries times a positive major step. -/
theorem C145_distinct_partial (majors minors : List String) (s0 d0 s1 d1 : ℚ) (h0 : 0 < d0)
    (hd : ((firstsOf majors).length : ℚ) * d0 ≤ d1) (more : List (Option (ℚ × ℚ))) (hnone : "none" ∉ minors)
    (t : DiscreteTicks)
    (ht : discreteTicks majors (some minors) (some (some (s0, d0) :: some (s1, d1) :: more)) = some t)
    (a a' : String) (ha : a ∈ majors) (ha' : a' ∈ majors) (b b' : String) (hb : b ∈ minors) (hb' : b' ∈ minors)
    (h : tickPosition t.hashmap a (some b) = tickPosition t.hashmap a' (some b')) : a = a' ∧ b = b' := by
  have hM : majors ≠ [] := List.ne_nil_of_mem ha
  have hN : minors ≠ [] := List.ne_nil_of_mem hb
  have hupos : 0 < (firstsOf majors).length := List.length_pos_of_ne_nil (firstsOf_ne_nil hM)
  have hup : (0 : ℚ) < ((firstsOf majors).length : ℚ) := by exact_mod_cast hupos
  have hd1 : 0 < d1 := lt_of_lt_of_le (mul_pos hup h0) hd
  rw [ticks_both majors minors hM hN s0 d0 s1 d1 (ne_of_gt h0) (ne_of_gt hd1) more] at ht
  cases ht
  simp only at h
  rw [position_both majors minors s0 d0 s1 d1 more a b ha hb (fun e => hnone (e ▸ hb)),
    position_both majors minors s0 d0 s1 d1 more a' b' ha' hb' (fun e => hnone (e ▸ hb'))] at h
  have h := Option.some.inj h
  have la := List.idxOf_lt_length_iff.mpr ((mem_firstsOf majors a).mpr ha)
  have la' := List.idxOf_lt_length_iff.mpr ((mem_firstsOf majors a').mpr ha')
  generalize hj : (firstsOf majors).idxOf a = j at *
  generalize hj' : (firstsOf majors).idxOf a' = j' at *
  generalize hk : (firstsOf minors).idxOf b = k at *
  generalize hk' : (firstsOf minors).idxOf b' = k' at *
  generalize hM' : (firstsOf majors).length = M at *
  have strict : ∀ (j j' k k' : ℕ), j < M → k < k' →
      (k : ℚ) * d1 + (j : ℚ) * d0 + s0 < (k' : ℚ) * d1 + (j' : ℚ) * d0 + s0 := by
    intro j j' k k' hj hk
    have e1 : (j : ℚ) < (M : ℚ) := by exact_mod_cast hj
    have e2 : (k : ℚ) + 1 ≤ (k' : ℚ) := by exact_mod_cast hk
    have e3 : (j : ℚ) * d0 < (M : ℚ) * d0 := mul_lt_mul_of_pos_right e1 h0
    have e4 : ((k : ℚ) + 1) * d1 ≤ (k' : ℚ) * d1 := mul_le_mul_of_nonneg_right e2 hd1.le
    have e5 : (0 : ℚ) ≤ (j' : ℚ) * d0 := mul_nonneg (Nat.cast_nonneg _) h0.le
    linarith
  have hkk : k = k' := by
    rcases lt_trichotomy k k' with hlt | heq | hgt
    · exact absurd h (ne_of_lt (strict j j' k k' la hlt))
    · exact heq
    · exact absurd h.symm (ne_of_lt (strict j' j k' k la' hgt))
  subst hkk
  have hjj : j = j' := by
    have : (j : ℚ) * d0 = (j' : ℚ) * d0 := by linarith
    exact_mod_cast mul_right_cancel₀ (ne_of_gt h0) this
  refine ⟨(List.idxOf_inj ((mem_firstsOf majors a).mpr ha)).mp ?_, (List.idxOf_inj ((mem_firstsOf minors b).mpr hb)).mp ?_⟩
  · rw [hj, hj', hjj]
  · rw [hk, hk']

example : ∃ t, discreteTicks ["a", "b"] (some ["x", "y"]) (some [some (1, 1), some (1, 2)]) = some t ∧
    tickPosition t.hashmap "a" (some "y") = some 3 ∧ tickPosition t.hashmap "b" (some "x") = some 2 :=
  ⟨_, rfl, by decide +kernel, by decide +kernel⟩

/-- With equal steps two different records are drawn over each other. -/
theorem C145_distinct_false : ∃ t, discreteTicks ["a", "b"] (some ["x", "y"]) (some [some (1, 1), some (1, 1)]) = some t ∧
    tickPosition t.hashmap "a" (some "y") = tickPosition t.hashmap "b" (some "x") ∧
    ¬ ∃ p, tickPosition t.hashmap "a" (some "y") = some p ∧ Spec.TickAt t.major p "a" := by
  refine ⟨_, rfl, by decide +kernel, ?_⟩
  rintro ⟨p, h1, n, h2, h3⟩
  have hp : p = 2 := by
    have : tickPosition (tickHashmap ["a", "b"] (some ["x", "y"]) (some [some (1, 1), some (1, 1)])) "a" (some "y") =
      some 2 := by decide +kernel
    exact Option.some.inj (h1.symm.trans this)
  subst hp
  have h2 : (["a", "b", "a", "b"] : List String)[n]? = some "a" := h2
  have h3 : (tickLocations 1 1 4)[n]? = some 2 := h3
  obtain ⟨hn, he⟩ := (tickLocations_get _ _ _ _ _).mp h3
  have : n = 1 := by
    have : (n : ℚ) = (1 : ℕ) := by push_cast; linarith
    exact_mod_cast this
  subst this
  simp at h2

/-- The tick of a minor entry lies within the records of that entry (between the first and the last of its major
positions) exactly when the start of the minor ticks lies within the first group of major ticks. -/
theorem C145_minor_within_iff (majors minors : List String) (s0 d0 s1 d1 : ℚ) (h0 : 0 < d0) (h1 : d1 ≠ 0)
    (more : List (Option (ℚ × ℚ))) (hM : majors ≠ []) (b : String) (hb : b ∈ minors) (hnone : b ≠ "none") (t : DiscreteTicks)
    (ht : discreteTicks majors (some minors) (some (some (s0, d0) :: some (s1, d1) :: more)) = some t) :
    ∃ u p, t.minor = some u ∧ Spec.TickAt u p b ∧
      ((∃ a ∈ majors, ∃ a' ∈ majors, ∃ q q', tickPosition t.hashmap a (some b) = some q ∧
          tickPosition t.hashmap a' (some b) = some q' ∧ q ≤ p ∧ p ≤ q') ↔
        s0 ≤ s1 ∧ s1 ≤ s0 + (((firstsOf majors).length - 1 : ℕ) : ℚ) * d0) := by
  have hN : minors ≠ [] := List.ne_nil_of_mem hb
  rw [ticks_both majors minors hM hN s0 d0 s1 d1 (ne_of_gt h0) h1 more] at ht
  cases ht
  have hbm := (mem_firstsOf minors b).mpr hb
  have hbi := List.idxOf_lt_length_iff.mpr hbm
  refine ⟨_, s1 + ((firstsOf minors).idxOf b : ℕ) * d1, rfl,
    ⟨(firstsOf minors).idxOf b, ?_, (tickLocations_get _ _ _ _ _).mpr ⟨hbi, rfl⟩⟩, ?_⟩
  · exact List.getElem?_eq_some_iff.mpr ⟨hbi, List.getElem_idxOf _⟩
  have pos : ∀ a ∈ majors, _ := fun a ha => position_both majors minors s0 d0 s1 d1 more a b ha hb hnone
  have hnd := firstsOf_nodup majors
  have hupos : 0 < (firstsOf majors).length := List.length_pos_of_ne_nil (firstsOf_ne_nil hM)
  constructor
  · rintro ⟨a, ha, a', ha', q, q', hq, hq', h2, h3⟩
    rw [pos a ha] at hq; rw [pos a' ha'] at hq'
    cases hq; cases hq'
    have e1 : (0 : ℚ) ≤ ((firstsOf majors).idxOf a : ℕ) * d0 := mul_nonneg (Nat.cast_nonneg _) h0.le
    have la' := List.idxOf_lt_length_iff.mpr ((mem_firstsOf majors a').mpr ha')
    have e2 : (((firstsOf majors).idxOf a' : ℕ) : ℚ) ≤ (((firstsOf majors).length - 1 : ℕ) : ℚ) := by
      exact_mod_cast Nat.le_sub_one_of_lt la'
    have e3 := mul_le_mul_of_nonneg_right e2 h0.le
    exact ⟨by linarith, by linarith⟩
  · rintro ⟨h2, h3⟩
    have f0 : (firstsOf majors)[0] ∈ majors := (mem_firstsOf majors _).mp (List.getElem_mem hupos)
    have hl : (firstsOf majors).length - 1 < (firstsOf majors).length := by omega
    have fl : (firstsOf majors)[(firstsOf majors).length - 1] ∈ majors := (mem_firstsOf majors _).mp (List.getElem_mem hl)
    refine ⟨_, f0, _, fl, _, _, pos _ f0, pos _ fl, ?_, ?_⟩
    · rw [hnd.idxOf_getElem]; push_cast; linarith
    · rw [hnd.idxOf_getElem]; linarith

example : ∃ t, discreteTicks ["a", "b", "c"] (some ["x", "y"]) (some [some (1, 1), some (2, 3)]) = some t :=
  ⟨_, rfl⟩

/-- Setting locations for the major ticks only: data with minor entries lose their positions. -/
theorem C145_major_entry_only (majors minors : List String) (s d : ℚ) (hd : d ≠ 0) (hM : majors ≠ []) :
    ∃ t, discreteTicks majors (some minors) (some [some (s, d)]) = some t ∧ t.minor = none ∧
      ∀ a b, b ≠ "none" → tickPosition t.hashmap a (some b) = none := by
  by_cases hN : firstsOf minors = []
  · refine ⟨_, by simp [discreteTicks, tickType, firstsOf_ne_nil hM, hd, hN]; rfl, rfl, ?_⟩
    intro a b hb
    simp only [tickPosition, hb, if_false]
    exact lookup_single_some (fun j : ℕ => (j : ℚ) * d + s) a b (firstsOf majors) 0
  · refine ⟨_, by simp [discreteTicks, tickType, firstsOf_ne_nil hM, hd, hN]; rfl, rfl, ?_⟩
    intro a b hb
    simp only [tickPosition, hb, if_false]
    exact lookup_single_some (fun j : ℕ => (j : ℚ) * d + s) a b (firstsOf majors) 0

/-- Which locations make the program exit: a step of zero or a missing pair, for either kind of tick. -/
theorem C145_exits_iff (majors minors : List String) (hM : majors ≠ []) (hN : minors ≠ []) (e0 e1 : Option (ℚ × ℚ))
    (more : List (Option (ℚ × ℚ))) :
    discreteTicks majors (some minors) (some (e0 :: e1 :: more)) = none ↔
      (e0 = none ∨ ∃ s, e0 = some (s, 0)) ∨ (e1 = none ∨ ∃ s, e1 = some (s, 0)) := by
  have f1 := firstsOf_ne_nil hM
  have f2 := firstsOf_ne_nil hN
  rcases e0 with _ | ⟨s0, d0⟩ <;> rcases e1 with _ | ⟨s1, d1⟩
  · simp [discreteTicks, tickType, f1, f2]
  · by_cases h1 : d1 = 0 <;> simp [discreteTicks, tickType, f1, f2, h1]
  · simp [discreteTicks, tickType, f1, f2]
  · by_cases h1 : d1 = 0 <;> by_cases h0 : d0 = 0 <;> simp [discreteTicks, tickType, f1, f2, h1, h0]

/-- The default value declared for the option (`[None]`, `main.py:629`), if it reaches the settings as declared, makes the
program exit on a discrete axis. -/
theorem C145_default_exits (majors : List String) (minors : Option (List String)) (hM : majors ≠ []) :
    discreteTicks majors minors (some [none]) = none := by
  have f1 := firstsOf_ne_nil hM
  cases minors with
  | none => simp [discreteTicks, tickType, f1]
  | some m => by_cases h : firstsOf m = [] <;> simp [discreteTicks, tickType, f1, h]

/-- A record whose minor entry reads `none` has no position among records that have minor entries. -/
theorem C145_none_entry_false : ∃ t, discreteTicks ["a"] (some ["none", "x"]) (some [some (1, 1), some (1, 1)]) = some t ∧
    tickPosition t.hashmap "a" (some "none") = none := ⟨_, rfl, by decide +kernel⟩

end GeNSIT
