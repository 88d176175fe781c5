import Verif.Folder.Model
import Verif.Summary.FoldersProps
import Mathlib.Tactic.IntervalCases

/-!
# C148, C149: the folder of a run and the time in its name
-/

set_option linter.unusedSimpArgs false
set_option linter.unusedVariables false

namespace GeNSIT

/-- The days of the months; every fourth year has a leap day, except centuries that are not divisible by 400. -/
def Spec.calendar (leap : Prop) [Decidable leap] : List ℕ := [31, if leap then 29 else 28, 31, 30, 31, 30, 31, 31, 30, 31, 30, 31]

/-- A time with four-digit year that a clock can show. -/
def Spec.ClockTime (s : Stamp) : Prop :=
  1000 ≤ s.year ∧ s.year ≤ 9999 ∧ 1 ≤ s.month ∧ s.month ≤ 12 ∧ 1 ≤ s.day ∧
    s.day ≤ (Spec.calendar ((4 ∣ s.year ∧ ¬ 100 ∣ s.year) ∨ 400 ∣ s.year)).getD (s.month - 1) 0 ∧ s.hour < 24 ∧ s.minute < 60 ∧ s.second < 60

theorem calendar_eq (y m : ℕ) (h1 : 1 ≤ m) (h2 : m ≤ 12) :
    (Spec.calendar ((4 ∣ y ∧ ¬ 100 ∣ y) ∨ 400 ∣ y)).getD (m - 1) 0 = monthDays y m := by
  have hl : ((4 ∣ y ∧ ¬ 100 ∣ y) ∨ 400 ∣ y) ↔ (y % 4 = 0 ∧ (y % 100 ≠ 0 ∨ y % 400 = 0)) := by omega
  unfold Spec.calendar monthDays
  simp only [hl]
  interval_cases m <;> simp

/-- The types of experiment (`gensit/static/global_variables.py:475-492`). -/
def Spec.runTypes : List Txt :=
  ["RSquared_Analysis".toList, "LogTarget_Analysis".toList, "SIM_MCMC".toList, "JointTableSIM_MCMC".toList, "Table_MCMC".toList,
    "SIM_NN".toList, "NonJointTableSIM_NN".toList, "JointTableSIM_NN".toList, "XGBoost_Comparison".toList,
    "RandomForest_Comparison".toList, "GBRT_Comparison".toList, "GraphAttentionNetwork_Comparison".toList]

/-! ### Digits -/

theorem dc_facts (n : ℕ) : (dc n).isDigit = true ∧ dc n ≠ '_' ∧ (dc n).toNat - 48 = n % 10 := by
  unfold dc
  have h : n % 10 < 10 := Nat.mod_lt _ (by norm_num)
  generalize n % 10 = k at h
  interval_cases k <;> decide

theorem dc_inj {m n : ℕ} (h : dc m = dc n) : m % 10 = n % 10 := by
  rw [← (dc_facts m).2.2, ← (dc_facts n).2.2, h]

theorem pad2_inj {m n : ℕ} (hm : m < 100) (hn : n < 100) (h : pad2 m = pad2 n) : m = n := by
  simp only [pad2, List.cons.injEq, and_true] at h
  have h1 := dc_inj h.1
  have h2 := dc_inj h.2
  omega

theorem pad4_inj {m n : ℕ} (hm : m < 10000) (hn : n < 10000) (h : pad4 m = pad4 n) : m = n := by
  simp only [pad4, List.cons.injEq, and_true] at h
  have h1 := dc_inj h.1
  have h2 := dc_inj h.2.1
  have h3 := dc_inj h.2.2.1
  have h4 := dc_inj h.2.2.2
  omega

theorem monthDays_le (y m : ℕ) : monthDays y m ≤ 31 := by
  unfold monthDays; split_ifs <;> norm_num

theorem stampText_length (s : Stamp) : (stampText s).length = 19 := by
  simp [stampText, pad2, pad4]

theorem stampText_inj {s t : Stamp} (hs : Spec.ClockTime s) (ht : Spec.ClockTime t) (h : stampText s = stampText t) : s = t := by
  obtain ⟨_, _, hm1, hm2, _, hd, _, _, _⟩ := hs
  obtain ⟨_, _, hm1', hm2', _, hd', _, _, _⟩ := ht
  rw [calendar_eq _ _ hm1 hm2] at hd
  rw [calendar_eq _ _ hm1' hm2'] at hd'
  have := monthDays_le s.year s.month
  have := monthDays_le t.year t.month
  unfold stampText at h
  replace h := List.append_inj h (by simp [pad2])
  obtain ⟨h1, h⟩ := h
  simp only [List.cons.injEq, true_and] at h
  replace h := List.append_inj h (by simp [pad2])
  obtain ⟨h2, h⟩ := h
  simp only [List.cons.injEq, true_and] at h
  replace h := List.append_inj h (by simp [pad4])
  obtain ⟨h3, h⟩ := h
  simp only [List.cons.injEq, true_and] at h
  replace h := List.append_inj h (by simp [pad2])
  obtain ⟨h4, h⟩ := h
  simp only [List.cons.injEq, true_and] at h
  replace h := List.append_inj h (by simp [pad2])
  obtain ⟨h5, h⟩ := h
  simp only [List.cons.injEq, true_and] at h
  have e1 := pad2_inj (by omega) (by omega) h1
  have e2 := pad2_inj (by omega) (by omega) h2
  have e3 := pad4_inj (by omega) (by omega) h3
  have e4 := pad2_inj (by omega) (by omega) h4
  have e5 := pad2_inj (by omega) (by omega) h5
  have e6 := pad2_inj (by omega) (by omega) h
  cases s; cases t; simp_all

/-! ### C148 -/

theorem experimentId_suffix {r : RunSettings} {i : Txt} (h : experimentId r = some i) :
    ∃ pre, i = r.type ++ '_' :: pre ++ stampText r.stamp := by
  unfold experimentId at h
  split at h
  · simp at h
  rename_i n _
  split at h
  · split at h
    · simp at h
    · rename_i k _
      simp only [Option.some.injEq] at h
      exact ⟨'K' :: (k ++ '_' :: (optPart r.proposal ++ optPart r.title)), by rw [← h]; simp⟩
  split at h
  · simp only [Option.some.injEq] at h
    exact ⟨optPart r.proposal ++ optPart r.title, by rw [← h]; simp⟩
  · simp only [Option.some.injEq] at h
    exact ⟨n ++ ("Noise_".toList ++ optPart r.title), by rw [← h]; simp⟩

theorem osJoin_suffix (a b : Txt) : ∃ pre, osJoin a b = pre ++ b := by
  unfold osJoin
  split_ifs
  · exact ⟨[], rfl⟩
  · exact ⟨a, rfl⟩
  · exact ⟨a ++ ['/'], by simp⟩

theorem outputsPath_suffix {o d g : Txt} {r : RunSettings} {p : Txt} (h : outputsPath o d g r = some p) :
    ∃ pre, p = pre ++ stampText r.stamp := by
  unfold outputsPath at h
  rw [Option.map_eq_some_iff] at h
  obtain ⟨i, hi, rfl⟩ := h
  obtain ⟨pre, rfl⟩ := experimentId_suffix hi
  obtain ⟨q, hq⟩ := osJoin_suffix (osJoin (osJoin o d) g) (r.type ++ '_' :: pre ++ stampText r.stamp)
  exact ⟨q ++ (r.type ++ '_' :: pre), by rw [hq]; simp⟩

/-- C148: runs started at different seconds never share a folder, whatever their output directory, data set, group, type, title and
noise, and whatever characters these contain. -/
theorem C148_different_times (o d g o' d' g' : Txt) (r r' : RunSettings) (p : Txt) (hr : Spec.ClockTime r.stamp)
    (hr' : Spec.ClockTime r'.stamp) (h : outputsPath o d g r = some p) (h' : outputsPath o' d' g' r' = some p) :
    r.stamp = r'.stamp := by
  obtain ⟨a, ha⟩ := outputsPath_suffix h
  obtain ⟨b, hb⟩ := outputsPath_suffix h'
  refine stampText_inj hr hr' ?_
  rw [ha] at hb
  exact (List.append_inj_right' hb (by rw [stampText_length, stampText_length]))

def exFolderRun : RunSettings := ⟨"SIM_NN".toList, [], false, [.value (.num (1 / 100))], some "exp1".toList, none, none, ⟨5, 6, 2023, 10, 11, 12⟩⟩

example : outputsPath "out/".toList "cambridge".toList [] exFolderRun = some "out/cambridge/SIM_NN_LowNoise_exp1_05_06_2023_10_11_12".toList := by
  decide +kernel

example : Spec.ClockTime exFolderRun.stamp := by unfold Spec.ClockTime; decide +kernel

theorem osJoin_inj_right {a x y : Txt} (hx : x.head? ≠ some '/') (hy : y.head? ≠ some '/') (h : osJoin a x = osJoin a y) : x = y := by
  unfold osJoin at h
  rw [if_neg hx, if_neg hy] at h
  split_ifs at h
  · simpa using h
  · simpa using h

theorem runTypes_prefix : ∀ a ∈ Spec.runTypes, ∀ b ∈ Spec.runTypes, (a ++ ['_']).isPrefixOf (b ++ ['_']) = true → a = b := by
  decide +kernel

theorem runTypes_head : ∀ a ∈ Spec.runTypes, ∀ x : Txt, (a ++ x).head? ≠ some '/' := by
  intro a ha x
  have h1 : ∀ a ∈ Spec.runTypes, a ≠ [] ∧ a.head? ≠ some '/' := by decide +kernel
  obtain ⟨hne, hh⟩ := h1 a ha
  cases a with
  | nil => exact absurd rfl hne
  | cons c s => simpa using hh

theorem runTypes_inj {a b x y : Txt} (ha : a ∈ Spec.runTypes) (hb : b ∈ Spec.runTypes) (h : a ++ '_' :: x = b ++ '_' :: y) : a = b := by
  have h' : (a ++ ['_']) ++ x = (b ++ ['_']) ++ y := by simpa using h
  rcases List.append_eq_append_iff.1 h' with ⟨c, h1, h2⟩ | ⟨c, h1, h2⟩
  · exact runTypes_prefix a ha b hb (by rw [h1, List.isPrefixOf_iff_prefix]; exact List.prefix_append _ _)
  · exact (runTypes_prefix b hb a ha (by rw [h1, List.isPrefixOf_iff_prefix]; exact List.prefix_append _ _)).symm

/-- C148: experiments of different type never share a folder, even if they are started together by one command. -/
theorem C148_different_types (o d g : Txt) (r r' : RunSettings) (p : Txt) (hr : r.type ∈ Spec.runTypes) (hr' : r'.type ∈ Spec.runTypes)
    (h : outputsPath o d g r = some p) (h' : outputsPath o d g r' = some p) : r.type = r'.type := by
  unfold outputsPath at h h'
  rw [Option.map_eq_some_iff] at h h'
  obtain ⟨i, hi, hp⟩ := h
  obtain ⟨j, hj, hp'⟩ := h'
  obtain ⟨a, ha⟩ := experimentId_suffix hi
  obtain ⟨b, hb⟩ := experimentId_suffix hj
  have hij : i = j := by
    refine osJoin_inj_right ?_ ?_ (hp.trans hp'.symm)
    · rw [ha, List.append_assoc]; exact runTypes_head _ hr _
    · rw [hb, List.append_assoc]; exact runTypes_head _ hr' _
  rw [ha, hb, List.append_assoc, List.append_assoc] at hij
  exact runTypes_inj hr hr' hij

example : outputsPath "out/".toList "cambridge".toList [] { exFolderRun with type := "SIM_MCMC".toList } ≠
    outputsPath "out/".toList "cambridge".toList [] exFolderRun := by decide +kernel

theorem optPart_inj {s t : Option Txt} (h : optPart s = optPart t) : s = t := by
  cases s <;> cases t <;> simp_all [optPart]

theorem takeWhile_under (a x : Txt) (ha : '_' ∉ a) : (a ++ '_' :: x).takeWhile (fun c => decide (c ≠ '_')) = a := by
  induction a with
  | nil => simp
  | cons c s ih =>
    simp only [List.mem_cons, not_or] at ha
    have hc : c ≠ '_' := fun e => ha.1 e.symm
    rw [List.cons_append, List.takeWhile_cons_of_pos (by simp [hc]), ih ha.2]

/-- C148: within one output directory, data set and group the folder identifies the type, the noise level, the title and the second of an
experiment with a physics model. -/
theorem C148_identifies (o d g : Txt) (r r' : RunSettings) (p n n' : Txt) (hr : r.type ∈ Spec.runTypes) (hr' : r'.type ∈ Spec.runTypes)
    (hT : r.type ≠ "Table_MCMC".toList) (hn : noiseLabel r = some n) (hn' : noiseLabel r' = some n')
    (hu : '_' ∉ n) (hu' : '_' ∉ n') (hs : Spec.ClockTime r.stamp) (hs' : Spec.ClockTime r'.stamp)
    (h : outputsPath o d g r = some p) (h' : outputsPath o d g r' = some p) :
    r.type = r'.type ∧ n = n' ∧ r.title = r'.title ∧ r.stamp = r'.stamp := by
  have ht := C148_different_types o d g r r' p hr hr' h h'
  have hst := C148_different_times o d g o d g r r' p hs hs' h h'
  refine ⟨ht, ?_⟩
  have hl : ∀ a ∈ Spec.runTypes, a ≠ "Table_MCMC".toList →
      a.map Char.toLower ∉ ["tablesummariesmcmcconvergence".toList, "table_mcmc_convergence".toList] ∧
        a.map Char.toLower ≠ "table_mcmc".toList := by decide +kernel
  have hid : ∀ (q : RunSettings) (m : Txt), q.type = r.type → noiseLabel q = some m →
      experimentId q = some (q.type ++ '_' :: (m ++ ("Noise_".toList ++ (optPart q.title ++ stampText q.stamp)))) := by
    intro q m hq hm
    obtain ⟨h1, h2⟩ := hl r.type hr hT
    unfold experimentId
    rw [hm, hq]
    simp only
    rw [if_neg h1, if_neg h2]
  have e1 := hid r n rfl hn
  have e2 := hid r' n' ht.symm hn'
  unfold outputsPath at h h'
  rw [e1, Option.map_some] at h
  rw [e2, Option.map_some] at h'
  simp only [Option.some.injEq] at h h'
  have hij := osJoin_inj_right (runTypes_head _ hr _) (runTypes_head _ hr' _) (h.trans h'.symm)
  rw [← ht] at hij
  have hij := List.append_cancel_left hij
  simp only [List.cons.injEq, true_and] at hij
  have key : ∀ (m x : Txt), m ++ ("Noise_".toList ++ x) = (m ++ "Noise".toList) ++ '_' :: x := by intro m x; simp
  rw [key, key] at hij
  have hN : '_' ∉ "Noise".toList := by decide
  have hm : n ++ "Noise".toList = n' ++ "Noise".toList := by
    rw [← takeWhile_under (n ++ "Noise".toList) _ (by simp [hu]), hij,
      takeWhile_under (n' ++ "Noise".toList) _ (by simp [hu'])]
  have hnn : n = n' := List.append_cancel_right hm
  subst hnn
  refine ⟨rfl, ?_, hst⟩
  have h2 := List.append_cancel_left hij
  simp only [List.cons.injEq, true_and] at h2
  rw [hst] at h2
  exact optPart_inj (List.append_cancel_right h2)

example : outputsPath "out/".toList "cambridge".toList [] { exFolderRun with title := some "exp2".toList } ≠
    outputsPath "out/".toList "cambridge".toList [] exFolderRun := by decide +kernel

/-- C148: the noise level in the name.  If the settings do not contain a regime, it says that the noise is learned, that it is swept, or, for a
single positive value of `sigma`, whether `sigma` is low (`sigma² ≤ 1/5000`) or high. -/
theorem C148_noise (r : RunSettings) (hr : r.type ∈ Spec.runTypes) (hT : r.type ≠ "Table_MCMC".toList) (hreg : r.regimes = []) :
    let name := fun level : String => some (r.type ++ "_".toList ++ level.toList ++ "Noise_".toList ++
      (match r.title with | none => [] | some t => t ++ "_".toList) ++ stampText r.stamp)
    (r.sigmaLearned = true → experimentId r = name "Learned") ∧
    (r.sigmaLearned = false → r.sigmas = [.swept] → experimentId r = name "Sweeped") ∧
    (∀ q : ℚ, r.sigmaLearned = false → r.sigmas = [.value (.num q)] → 0 < q →
      experimentId r = name (if q * q ≤ 1 / 5000 then "Low" else "High")) ∧
    (r.sigmaLearned = false → r.sigmas = [] → experimentId r = name "Unset") := by
  have hl : ∀ a ∈ Spec.runTypes, a ≠ "Table_MCMC".toList →
      a.map Char.toLower ∉ ["tablesummariesmcmcconvergence".toList, "table_mcmc_convergence".toList] ∧
        a.map Char.toLower ≠ "table_mcmc".toList := by decide +kernel
  obtain ⟨g1, g2⟩ := hl r.type hr hT
  have key : ∀ n : Txt, noiseLabel r = some n → experimentId r = some (r.type ++ "_".toList ++ n ++ "Noise_".toList ++
      (match r.title with | none => [] | some t => t ++ "_".toList) ++ stampText r.stamp) := by
    intro n hn
    unfold experimentId
    rw [hn]
    simp only
    rw [if_neg g1, if_neg g2]
    cases r.title <;> simp [optPart]
  refine ⟨fun h => key _ ?_, fun h h2 => key _ ?_, fun q h h2 hq => key _ ?_, fun h h2 => key _ ?_⟩
  · simp [noiseLabel, hreg, h]
  · simp [noiseLabel, hreg, h, h2]
  · have hiff : (10000 : ℚ) ≤ 2 / (q * q) ↔ q * q ≤ 1 / 5000 := by
      have : 0 < q * q := by positivity
      rw [le_div_iff₀ this, le_div_iff₀ (by norm_num)]
      constructor <;> intro h <;> linarith
    simp only [noiseLabel, hreg, h, h2, noiseRegime, Bool.false_eq_true, if_false, if_neg hq.ne', hiff, hq, if_true]
    split_ifs <;> decide +kernel
  · simp [noiseLabel, hreg, h, h2]

example : experimentId { exFolderRun with
      regimes := []
      sigmas := [.value (.num (1 / 10))] } = some "SIM_NN_HighNoise_exp1_05_06_2023_10_11_12".toList := by decide +kernel

/-! ### The data in the folder -/

/-- The rows a run has written since it last opened its file. -/
def Spec.RowsOf {α : Type} (i : ℕ) (es : List (FileEvent α)) (rows : List α) : Prop :=
  ∃ before after : List (FileEvent α), es = before ++ .start i :: after ∧ .start i ∉ after ∧
    rows = after.filterMap fun e =>
      match e with
      | .start _ => none
      | .write j x => if j = i then some x else none

theorem fileRun_own {α : Type} (file : ℕ → Txt) (i : ℕ) (es : List (FileEvent α))
    (h : ∀ e ∈ es, match e with | .start j => file j = file i → j = i | .write j _ => file j = file i → j = i) :
    ∀ fs : Txt → Option (List α), fileRun file fs es (file i) =
      es.foldl (fun acc e =>
        match e with
        | .start j => if j = i then some [] else acc
        | .write j x => if j = i then acc.map (· ++ [x]) else acc) (fs (file i)) := by
  induction es with
  | nil => intro fs; rfl
  | cons e es ih =>
    intro fs
    rw [fileRun, ih (fun e' he' => h e' (List.mem_cons_of_mem _ he')), List.foldl_cons]
    congr 1
    have he := h e (List.mem_cons_self ..)
    cases e with
    | start j =>
      simp only at he
      simp only [fileStep]
      by_cases hj : j = i
      · subst hj; simp
      · rw [if_neg hj, if_neg (fun e => hj (he e.symm))]
    | write j x =>
      simp only at he
      simp only [fileStep]
      by_cases hj : j = i
      · subst hj; simp
      · rw [if_neg hj, if_neg (fun e => hj (he e.symm))]


theorem pad2_last (n : ℕ) (x : Txt) : (x ++ pad2 n).getLast? = some (dc n) := by simp [pad2]

theorem stampText_last (s : Stamp) (x : Txt) : (x ++ stampText s).getLast? = some (dc s.second) := by
  simp [stampText, pad2, pad4]

theorem dataFile_eq {p : Txt} (hp : p ≠ []) (hl : p.getLast? ≠ some '/') : dataFile p = p ++ "/samples/data.h5".toList := by
  have e1 : osJoin p "samples".toList = p ++ "/samples".toList := by
    unfold osJoin
    rw [if_neg (by decide), if_neg (by simp [hp, hl])]
    rfl
  have e2 : osJoin (p ++ "/samples".toList) [] = p ++ "/samples/".toList := by
    unfold osJoin
    rw [if_neg (by simp), if_neg (by simp [hp])]
    simp
  unfold dataFile
  rw [e1, e2]
  unfold osJoin
  rw [if_neg (by decide), if_pos (by right; simp)]
  simp

theorem outputsPath_data {o d g : Txt} {r : RunSettings} {p : Txt} (h : outputsPath o d g r = some p) :
    dataFile p = p ++ "/samples/data.h5".toList := by
  obtain ⟨a, rfl⟩ := outputsPath_suffix h
  apply dataFile_eq
  · intro hc
    have := congrArg List.length hc
    simp [stampText_length] at this
  · rw [stampText_last]
    intro hc
    have h1 := (dc_facts r.stamp.second).1
    rw [Option.some.injEq] at hc
    rw [hc] at h1
    exact absurd h1 (by decide)

/-- C148: data are kept: let any number of runs, started at different seconds, open their data files and write rows in any order, stopping
anywhere, with any files there before.  At the end the data file of each run that was started holds exactly the rows the run has written,
in order. -/
theorem C148_kept {α : Type} (o d g : ℕ → Txt) (r : ℕ → RunSettings) (p : ℕ → Txt) (hp : ∀ i, outputsPath (o i) (d i) (g i) (r i) = some (p i))
    (hc : ∀ i, Spec.ClockTime (r i).stamp) (hd : ∀ i j, (r i).stamp = (r j).stamp → i = j)
    (fs : Txt → Option (List α)) (es : List (FileEvent α)) (i : ℕ) (rows : List α) (hi : Spec.RowsOf i es rows) :
    fileRun (fun k => dataFile (p k)) fs es (dataFile (p i)) = some rows := by
  have hf : ∀ j, dataFile (p j) = dataFile (p i) → j = i := by
    intro j hj
    rw [outputsPath_data (hp j), outputsPath_data (hp i)] at hj
    have hpp := List.append_cancel_right hj
    refine hd j i (C148_different_times (o j) (d j) (g j) (o i) (d i) (g i) (r j) (r i) (p i) (hc j) (hc i) ?_ (hp i))
    rw [← hpp]; exact hp j
  have h := fileRun_own (fun k => dataFile (p k)) i es (by
    intro e _
    cases e with
    | start j => exact hf j
    | write j x => exact hf j) fs
  rw [h]
  obtain ⟨before, after, rfl, hns, rfl⟩ := hi
  rw [List.foldl_append, List.foldl_cons]
  simp only [if_true]
  have key : ∀ (l : List (FileEvent α)), (.start i : FileEvent α) ∉ l → ∀ acc : List α,
      l.foldl (fun acc e =>
        match e with
        | .start j => if j = i then some [] else acc
        | .write j x => if j = i then acc.map (· ++ [x]) else acc) (some acc) = some (acc ++ l.filterMap fun e =>
          match e with
          | .start _ => none
          | .write j x => if j = i then some x else none) := by
    intro l
    induction l with
    | nil => intro _ acc; simp
    | cons e l ih =>
      intro hl acc
      rw [List.mem_cons, not_or] at hl
      rw [List.foldl_cons]
      cases e with
      | start j =>
        have hj : j ≠ i := by rintro rfl; exact hl.1 rfl
        simp only [if_neg hj]
        rw [ih hl.2, List.filterMap_cons_none rfl]
      | write j x =>
        by_cases hj : j = i
        · subst hj
          simp only [if_true, Option.map_some]
          rw [ih hl.2, List.filterMap_cons_some (b := x) (by simp)]
          simp
        · simp only [if_neg hj]
          rw [ih hl.2, List.filterMap_cons_none (by simp [hj])]
  rw [key after hns []]
  simp

example : Spec.RowsOf 1 [FileEvent.start 1, .start 2, .write 1 'a', .write 2 'b', .write 1 'c'] ['a', 'c'] :=
  ⟨[], [.start 2, .write 1 'a', .write 2 'b', .write 1 'c'], rfl, by simp, by decide +kernel⟩

/-- C148 fails in full: two runs that differ in settings not shown in the name (a seed, a number of iterations) and are started within one
second share the folder, and the second deletes the data of the first. -/
theorem C148_kept_false : ¬ ∀ (o d g : Txt) (r : ℕ → RunSettings) (p : ℕ → Txt), (∀ i, outputsPath o d g (r i) = some (p i)) →
    (∀ i, Spec.ClockTime (r i).stamp) → ∀ (es : List (FileEvent Char)) (i : ℕ) (rows : List Char), Spec.RowsOf i es rows →
    fileRun (fun k => dataFile (p k)) (fun _ => none) es (dataFile (p i)) = some rows := by
  intro h
  have := h "out/".toList "cambridge".toList [] (fun _ => exFolderRun) (fun _ => "out/cambridge/SIM_NN_LowNoise_exp1_05_06_2023_10_11_12".toList)
    (fun _ => by decide +kernel) (fun _ => by unfold Spec.ClockTime; decide +kernel) [.start 1, .write 1 'a', .start 2] 1 ['a']
    ⟨[], [.write 1 'a', .start 2], rfl, by simp, by decide +kernel⟩
  revert this
  decide +kernel

/-! ### C149 -/

/-- Text that consists of digits. -/
def Spec.Digits (g : Txt) : Prop := g ≠ [] ∧ ∀ c ∈ g, c.isDigit = true

/-- No three numbers in a row, separated by underscores. -/
def Spec.NoThreeNumbers (t : Txt) : Prop :=
  ∀ a b : Char, a.isDigit = true → b.isDigit = true → ∀ g, Spec.Digits g → ¬ ([a, '_'] ++ g ++ ['_', b]) <:+: t

theorem mem_digitRuns {n : ℕ} {s : Txt} {p : Txt × Txt} (h : p ∈ digitRuns n s) :
    s = p.1 ++ p.2 ∧ (∀ c ∈ p.1, c.isDigit = true) ∧ p.1.length ≤ n := by
  induction n generalizing s p with
  | zero =>
    simp only [digitRuns, List.mem_singleton] at h
    subst h; simp
  | succ n ih =>
    cases s with
    | nil => simp only [digitRuns, List.mem_singleton] at h; subst h; simp
    | cons c s =>
      simp only [digitRuns] at h
      split_ifs at h with hc
      · rw [List.mem_append, List.mem_map, List.mem_singleton] at h
        rcases h with ⟨q, hq, rfl⟩ | rfl
        · obtain ⟨h1, h2, h3⟩ := ih hq
          refine ⟨by simp [← h1], ?_, by simpa using h3⟩
          intro x hx
          rcases List.mem_cons.1 hx with rfl | hx
          · exact hc
          · exact h2 x hx
        · simp
      · rw [List.mem_singleton] at h; subst h; simp

theorem rxGroups_cons {lo hi : ℕ} {g : ℕ × ℕ} {gs : List (ℕ × ℕ)} {s m : Txt} (hlo : 1 ≤ lo) (h : m ∈ rxGroups ((lo, hi) :: g :: gs) s) :
    ∃ a r m', s = a ++ '_' :: r ∧ Spec.Digits a ∧ a.length ≤ hi ∧ m' ∈ rxGroups (g :: gs) r := by
  unfold rxGroups at h
  rw [List.mem_flatMap] at h
  obtain ⟨p, hp, hm⟩ := h
  obtain ⟨h1, h2, h3⟩ := mem_digitRuns hp
  split_ifs at hm with hl
  · split at hm
    · simp at hm
    · rename_i c r he
      split_ifs at hm with hc
      · rw [List.mem_map] at hm
        obtain ⟨m', hm', _⟩ := hm
        refine ⟨p.1, r, m', by rw [h1, he, hc], ⟨?_, h2⟩, h3, hm'⟩
        intro e; rw [e] at hl; simp at hl; omega
      · simp at hm
  · simp at hm

theorem rxGroups_one {lo hi : ℕ} {s m : Txt} (hlo : 1 ≤ lo) (h : m ∈ rxGroups [(lo, hi)] s) :
    ∃ a r, s = a ++ r ∧ Spec.Digits a ∧ a.length ≤ hi := by
  unfold rxGroups at h
  rw [List.mem_flatMap] at h
  obtain ⟨p, hp, hm⟩ := h
  obtain ⟨h1, h2, h3⟩ := mem_digitRuns hp
  split_ifs at hm with hl
  · refine ⟨p.1, p.2, h1, ⟨?_, h2⟩, h3⟩
    intro e; rw [e] at hl; simp at hl; omega
  · simp at hm

theorem digits_no_under {g : Txt} (h : Spec.Digits g) : '_' ∉ g := fun hc => absurd (h.2 _ hc) (by decide)

theorem peel {q S g z : Txt} (hq : q.getLast? = some '_') (hg : Spec.Digits g) (h : q ++ S = g ++ '_' :: z) :
    ∃ p, q = g ++ '_' :: p ∧ z = p ++ S ∧ (p = [] ∨ p.getLast? = some '_') := by
  rcases List.append_eq_append_iff.1 h with ⟨c, h1, h2⟩ | ⟨c, h1, h2⟩
  · exfalso
    have : '_' ∈ q := List.mem_of_getLast? hq
    exact digits_no_under hg (by rw [h1]; exact List.mem_append_left _ this)
  · cases c with
    | nil =>
      simp only [List.append_nil] at h1
      exfalso
      exact digits_no_under hg (by rw [← h1]; exact List.mem_of_getLast? hq)
    | cons x c =>
      simp only [List.cons_append, List.cons.injEq] at h2
      obtain ⟨rfl, rfl⟩ := h2
      refine ⟨c, h1, rfl, ?_⟩
      cases c with
      | nil => left; rfl
      | cons y c =>
        right
        rw [h1] at hq
        rw [List.getLast?_append, List.getLast?_cons_cons] at hq
        simpa using hq

theorem head_peel {a z b y : Txt} (ha : Spec.Digits a) (hb : '_' ∉ b) (h : a ++ '_' :: z = b ++ '_' :: y) : a = b ∧ z = y := by
  have h1 := congrArg (fun l => l.takeWhile fun c => decide (c ≠ '_')) h
  simp only [takeWhile_under _ _ (digits_no_under ha), takeWhile_under _ _ hb] at h1
  subst h1
  exact ⟨rfl, by simpa using h⟩

theorem pad2_under (n : ℕ) : '_' ∉ pad2 n := by
  have h1 := (dc_facts (n / 10)).2.1
  have h2 := (dc_facts n).2.1
  simp [pad2, h1.symm, h2.symm]

theorem pad4_under (n : ℕ) : '_' ∉ pad4 n := by
  have h1 := (dc_facts (n / 10)).2.1
  have h2 := (dc_facts n).2.1
  have h3 := (dc_facts (n / 100)).2.1
  have h4 := (dc_facts (n / 1000)).2.1
  simp [pad4, h1.symm, h2.symm, h3.symm, h4.symm]

/-- No match starts before the time stamp. -/
theorem no_early_match (s : Stamp) (q : Txt) (hq : q.getLast? = some '_') (hn : Spec.NoThreeNumbers q) :
    rxGroups dateGroups (q ++ stampText s) = [] := by
  rw [List.eq_nil_iff_forall_not_mem]
  intro m hm
  obtain ⟨g1, r1, m1, e1, d1, l1, hm⟩ := rxGroups_cons (le_refl 1) hm
  obtain ⟨g2, r2, m2, e2, d2, l2, hm⟩ := rxGroups_cons (le_refl 1) hm
  obtain ⟨g3, r3, m3, e3, d3, l3, hm⟩ := rxGroups_cons (by norm_num) hm
  obtain ⟨g4, r4, m4, e4, d4, l4, hm⟩ := rxGroups_cons (le_refl 1) hm
  obtain ⟨g5, r5, m5, e5, d5, l5, hm⟩ := rxGroups_cons (le_refl 1) hm
  obtain ⟨p1, hp1, hr1, hl1⟩ := peel hq d1 e1
  have four : ∀ {g : Txt} {n : ℕ}, g = pad4 n → g.length ≤ 2 → False := by
    intro g n h hl; rw [h] at hl; simp [pad4] at hl
  rcases hl1 with rfl | hl1
  · rw [List.nil_append] at hr1
    subst hr1
    unfold stampText at e2
    obtain ⟨_, e⟩ := head_peel d2 (pad2_under _) e2.symm
    rw [e] at e3
    obtain ⟨_, e⟩ := head_peel d3 (pad2_under _) e3.symm
    rw [e] at e4
    obtain ⟨h4, _⟩ := head_peel d4 (pad4_under _) e4.symm
    exact four h4 l4
  rw [hr1] at e2
  obtain ⟨p2, hp2, hr2, hl2⟩ := peel hl1 d2 e2
  rcases hl2 with rfl | hl2
  · rw [List.nil_append] at hr2
    subst hr2
    unfold stampText at e3
    obtain ⟨_, e⟩ := head_peel d3 (pad2_under _) e3.symm
    rw [e] at e4
    obtain ⟨_, e⟩ := head_peel d4 (pad2_under _) e4.symm
    rw [e] at e5
    obtain ⟨h5, _⟩ := head_peel d5 (pad4_under _) e5.symm
    exact four h5 l5
  rw [hr2] at e3
  obtain ⟨p3, hp3, hr3, _⟩ := peel hl2 d3 e3
  subst hp3; subst hp2; subst hp1
  obtain ⟨ys, a, hys⟩ : ∃ ys a, g1 = ys ++ [a] := ⟨g1.dropLast, g1.getLast d1.1, (List.dropLast_append_getLast d1.1).symm⟩
  obtain ⟨b, zs, hzs⟩ : ∃ b zs, g3 = b :: zs := by
    cases g3 with
    | nil => exact absurd rfl d3.1
    | cons b zs => exact ⟨b, zs, rfl⟩
  refine hn a b (d1.2 a (by simp [hys])) (d3.2 b (by simp [hzs])) g2 d2 ?_
  rw [hys, hzs]
  exact ⟨ys, zs ++ '_' :: p3, by simp⟩

theorem digitRuns_flatMap {β : Type} (g r : Txt) (hg : ∀ c ∈ g, c.isDigit = true) :
    ∀ (hi : ℕ) (F : Txt × Txt → List β), g.length ≤ hi → (∀ a b, b.head? ≠ some '_' → F (a, b) = []) →
      (digitRuns hi (g ++ '_' :: r)).flatMap F = F (g, '_' :: r) := by
  induction g with
  | nil =>
    intro hi F _ _
    cases hi with
    | zero => simp [digitRuns]
    | succ n =>
      have : ('_' : Char).isDigit = false := by decide
      simp [digitRuns, this]
  | cons c g ih =>
    intro hi F hl hF
    cases hi with
    | zero => simp at hl
    | succ n =>
      have hc := hg c (List.mem_cons_self ..)
      simp only [List.cons_append, digitRuns, hc, if_true, List.flatMap_append, List.flatMap_map]
      rw [ih (fun x hx => hg x (List.mem_cons_of_mem _ hx)) n (fun p => F (c :: p.1, p.2)) (by simpa using hl)
        (fun a b hb => hF (c :: a) b hb)]
      have : F ([], c :: (g ++ '_' :: r)) = [] := by
        apply hF
        simp only [List.head?_cons, ne_eq, Option.some.injEq]
        rintro rfl
        exact absurd hc (by decide)
      simp [this]

theorem rxGroups_step {lo hi : ℕ} {g : ℕ × ℕ} {gs : List (ℕ × ℕ)} {a r : Txt} (ha : ∀ c ∈ a, c.isDigit = true) (hlo : lo ≤ a.length)
    (hhi : a.length ≤ hi) : rxGroups ((lo, hi) :: g :: gs) (a ++ '_' :: r) = (rxGroups (g :: gs) r).map fun m => a ++ '_' :: m := by
  rw [rxGroups, digitRuns_flatMap a r ha hi _ hhi]
  · simp [hlo]
  · intro x y hy
    simp only
    split_ifs
    · cases y with
      | nil => rfl
      | cons c y =>
        simp only [List.head?_cons, ne_eq, Option.some.injEq] at hy
        simp [hy]
    · rfl

theorem pad2_digits (n : ℕ) : ∀ c ∈ pad2 n, c.isDigit = true := by
  intro c hc
  simp only [pad2, List.mem_cons, List.not_mem_nil, or_false] at hc
  rcases hc with rfl | rfl <;> exact (dc_facts _).1

theorem pad4_digits (n : ℕ) : ∀ c ∈ pad4 n, c.isDigit = true := by
  intro c hc
  simp only [pad4, List.mem_cons, List.not_mem_nil, or_false] at hc
  rcases hc with rfl | rfl | rfl | rfl <;> exact (dc_facts _).1

theorem match_stamp (s : Stamp) : ∃ l, rxGroups dateGroups (stampText s) = stampText s :: l := by
  unfold dateGroups stampText
  rw [rxGroups_step (pad2_digits _) (by simp [pad2]) (by simp [pad2]), rxGroups_step (pad2_digits _) (by simp [pad2]) (by simp [pad2]),
    rxGroups_step (pad4_digits _) (by simp [pad4]) (by simp [pad4]), rxGroups_step (pad2_digits _) (by simp [pad2]) (by simp [pad2]),
    rxGroups_step (pad2_digits _) (by simp [pad2]) (by simp [pad2])]
  have h : ∃ l, rxGroups [(1, 2)] (pad2 s.second) = pad2 s.second :: l := by
    refine ⟨[[dc (s.second / 10)]], ?_⟩
    simp [rxGroups, pad2, digitRuns, (dc_facts _).1]
  obtain ⟨l, hl⟩ := h
  rw [hl]
  simp

theorem dateSearch_stamp (s : Stamp) (q : Txt) (hq : q = [] ∨ q.getLast? = some '_') (hn : Spec.NoThreeNumbers q) :
    dateSearch (q ++ stampText s) = some (stampText s) := by
  induction q with
  | nil =>
    obtain ⟨l, hl⟩ := match_stamp s
    have hne : stampText s ≠ [] := by intro hc; have := congrArg List.length hc; simp [stampText_length] at this
    rw [List.nil_append]
    revert hl
    generalize hS : stampText s = S at hne ⊢
    intro hl
    cases S with
    | nil => exact absurd rfl hne
    | cons c S => unfold dateSearch; rw [hl]
  | cons c q ih =>
    have hq' : (c :: q).getLast? = some '_' := by
      rcases hq with h | h
      · simp at h
      · exact h
    have hm := no_early_match s (c :: q) hq' hn
    rw [List.cons_append] at hm ⊢
    unfold dateSearch
    rw [hm]
    refine ih ?_ (fun a b ha hb g hg hi => hn a b ha hb g hg (hi.trans (List.suffix_cons c q).isInfix))
    cases q with
    | nil => left; rfl
    | cons x q => right; simpa [List.getLast?_cons_cons] using hq'

theorem splitUnder_append (g r : Txt) (hg : '_' ∉ g) : splitUnder (g ++ '_' :: r) = g :: splitUnder r := by
  induction g with
  | nil => simp [splitUnder]
  | cons c g ih =>
    simp only [List.mem_cons, not_or] at hg
    rw [List.cons_append, splitUnder, if_neg (fun e => hg.1 e.symm), ih hg.2]

theorem splitUnder_one (g : Txt) (hg : '_' ∉ g) : splitUnder g = [g] := by
  induction g with
  | nil => rfl
  | cons c g ih =>
    simp only [List.mem_cons, not_or] at hg
    rw [splitUnder, if_neg (fun e => hg.1 e.symm), ih hg.2]

theorem txtNum_pad2 (n : ℕ) (h : n < 100) : txtNum (pad2 n) = n := by
  simp only [txtNum, pad2, List.foldl_cons, List.foldl_nil, (dc_facts _).2.2]
  omega

theorem txtNum_pad4 (n : ℕ) (h : n < 10000) : txtNum (pad4 n) = n := by
  simp only [txtNum, pad4, List.foldl_cons, List.foldl_nil, (dc_facts _).2.2]
  omega

theorem parse_stamp (s : Stamp) (hs : Spec.ClockTime s) : parseStamp (stampText s) = some s := by
  obtain ⟨h1, h2, h3, h4, h5, h6, h7, h8, h9⟩ := hs
  rw [calendar_eq _ _ h3 h4] at h6
  have := monthDays_le s.year s.month
  have e : splitUnder (stampText s) = [pad2 s.day, pad2 s.month, pad4 s.year, pad2 s.hour, pad2 s.minute, pad2 s.second] := by
    unfold stampText
    rw [splitUnder_append _ _ (pad2_under _), splitUnder_append _ _ (pad2_under _), splitUnder_append _ _ (pad4_under _),
      splitUnder_append _ _ (pad2_under _), splitUnder_append _ _ (pad2_under _), splitUnder_one _ (pad2_under _)]
  unfold parseStamp
  rw [e]
  simp only
  rw [if_pos (by simp [pad4]), txtNum_pad2 _ (by omega), txtNum_pad2 _ (by omega), txtNum_pad4 _ (by omega), txtNum_pad2 _ (by omega),
    txtNum_pad2 _ (by omega), txtNum_pad2 _ (by omega)]
  rw [if_pos]
  unfold Stamp.ok
  simp only [decide_eq_true_eq]
  omega

/-- C149: the time read from a path that ends in `_` and a time is that time, unless three or more numbers separated by underscores come
before. -/
theorem C149_time_partial (pre : Txt) (s : Stamp) (hs : Spec.ClockTime s) (hn : Spec.NoThreeNumbers (pre ++ ['_'])) :
    pathTime (pre ++ '_' :: stampText s) = some s.code := by
  have h : pre ++ '_' :: stampText s = (pre ++ ['_']) ++ stampText s := by simp
  rw [h]
  unfold pathTime
  rw [dateSearch_stamp s _ (Or.inr (by simp)) hn, Option.bind_some, parse_stamp s hs, Option.map_some]

example : pathTime "out/cambridge/SIM_NN_LowNoise_exp_1_05_06_2023_10_11_12".toList = some (Stamp.code ⟨5, 6, 2023, 10, 11, 12⟩) := by
  decide +kernel

/-- The order of times: by year, month, day, hour, minute, second. -/
def Spec.Earlier (s t : Stamp) : Prop :=
  s.year < t.year ∨ s.year = t.year ∧ (s.month < t.month ∨ s.month = t.month ∧ (s.day < t.day ∨ s.day = t.day ∧
    (s.hour < t.hour ∨ s.hour = t.hour ∧ (s.minute < t.minute ∨ s.minute = t.minute ∧ s.second < t.second))))

theorem code_lt {s t : Stamp} (hs : Spec.ClockTime s) (ht : Spec.ClockTime t) : s.code < t.code ↔ Spec.Earlier s t := by
  obtain ⟨a1, a2, a3, a4, a5, a6, a7, a8, a9⟩ := hs
  obtain ⟨b1, b2, b3, b4, b5, b6, b7, b8, b9⟩ := ht
  rw [calendar_eq _ _ a3 a4] at a6
  rw [calendar_eq _ _ b3 b4] at b6
  have := monthDays_le s.year s.month
  have := monthDays_le t.year t.month
  unfold Stamp.code Spec.Earlier
  omega

/-- C149: the folders found by a search are in the order in which their runs were started. -/
theorem C149_order_partial (dir : Txt → Option DirTree) (c : SearchSettings) (l : List Txt) (h : findFolders pathTime dir c = .ok l)
    (pre : Txt → Txt) (st : Txt → Stamp) (hf : ∀ p ∈ l, p = pre p ++ '_' :: stampText (st p)) (hs : ∀ p ∈ l, Spec.ClockTime (st p))
    (hn : ∀ p ∈ l, Spec.NoThreeNumbers (pre p ++ ['_'])) : l.Pairwise fun a b => ¬ Spec.Earlier (st b) (st a) := by
  have h1 := C126_sorted pathTime dir c l h
  refine List.Pairwise.imp_of_mem ?_ h1
  rintro a b ha hb ⟨s, t, e1, e2, e3⟩ hE
  rw [hf a ha, C149_time_partial _ _ (hs a ha) (hn a ha)] at e1
  rw [hf b hb, C149_time_partial _ _ (hs b hb) (hn b hb)] at e2
  simp only [Option.some.injEq] at e1 e2
  have := (code_lt (hs b hb) (hs a ha)).2 hE
  omega

/-- Two runs of one data set, listed in the wrong order. -/
def exRuns : Txt → Option DirTree := fun p =>
  if p = "o/d/g".toList then some (.node [] [("SIM_NN_LowNoise_a_05_06_2023_10_11_12".toList, .node ["config.json".toList] []),
    ("SIM_NN_LowNoise_b_06_05_2023_10_11_12".toList, .node ["config.json".toList] [])]) else none

example : findFolders pathTime exRuns ⟨"o".toList, "g".toList, ["d".toList], ["SIM_NN".toList], [[]], [], []⟩ =
    .ok ["o/d/g/SIM_NN_LowNoise_b_06_05_2023_10_11_12".toList, "o/d/g/SIM_NN_LowNoise_a_05_06_2023_10_11_12".toList] := by decide +kernel

/-- The time in the name of a run's own folder is always read. -/
def Spec.TimeRead : Prop := ∀ (o d g : Txt) (r : RunSettings) (p : Txt), Spec.ClockTime r.stamp → outputsPath o d g r = some p →
  pathTime p = some r.stamp.code

/-- C149 fails in full: with a title of numbers another time is read. -/
theorem C149_time_false : ¬ Spec.TimeRead := by
  intro h
  have := h "out/".toList "cambridge".toList [] { exFolderRun with title := some "1_1_2020_1_1".toList }
    "out/cambridge/SIM_NN_LowNoise_1_1_2020_1_1_05_06_2023_10_11_12".toList (by unfold Spec.ClockTime; decide +kernel) (by decide +kernel)
  revert this
  decide +kernel

/-- C149: a single folder without a readable time, for instance of an experiment titled `1_2_33`, makes every search that matches it
fail, whatever else is found. -/
theorem C149_unreadable (dir : Txt → Option DirTree) (c : SearchSettings) (p : Txt) (h1 : p ∈ c.candidates dir)
    (h2 : rxSearch c.patterns p = true) (h3 : pathTime p = none) : ∀ l, findFolders pathTime dir c ≠ .ok l := by
  intro l hl
  have := (C126_succeeds pathTime dir c).1 ⟨l, hl⟩
  have := this.2.2 p h1 h2
  rw [h3] at this
  simp at this

/-- C149: the program makes such folders. -/
theorem C149_unreadable_made : outputsPath "out/".toList "cambridge".toList [] { exFolderRun with title := some "1_2_33".toList } =
      some "out/cambridge/SIM_NN_LowNoise_1_2_33_05_06_2023_10_11_12".toList ∧
    pathTime "out/cambridge/SIM_NN_LowNoise_1_2_33_05_06_2023_10_11_12".toList = none := by decide +kernel

end GeNSIT
