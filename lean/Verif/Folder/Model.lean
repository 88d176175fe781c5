import Verif.Summary.Folders
import Verif.Sweep.Model

/-!
# The folder of an experiment

Model of `Outputs.update_experiment_directory_id` and of the output path (`gensit/outputs.py:105-117`, `880-929`), of the
data file opened by a run (`gensit/outputs.py:974-1003`), and of the time read from the path of a folder
(`gensit/outputs.py:2281-2291`).
-/

namespace GeNSIT

/-- A time of the clock, to the second. -/
structure Stamp where
  day : ℕ
  month : ℕ
  year : ℕ
  hour : ℕ
  minute : ℕ
  second : ℕ
deriving DecidableEq

/-- A decimal digit. -/
def dc (n : ℕ) : Char := Char.ofNat (48 + n % 10)

/-- Two digits. -/
def pad2 (n : ℕ) : Txt := [dc (n / 10), dc n]

/-- Four digits. -/
def pad4 (n : ℕ) : Txt := [dc (n / 1000), dc (n / 100), dc (n / 10), dc n]

/-- `datetime.now().strftime("%d_%m_%Y_%H_%M_%S")` (`gensit/experiments.py:225`, `229`, `3647`). -/
def stampText (s : Stamp) : Txt :=
  pad2 s.day ++ '_' :: (pad2 s.month ++ '_' :: (pad4 s.year ++ '_' :: (pad2 s.hour ++ '_' :: (pad2 s.minute ++ '_' :: pad2 s.second))))

/-- `str.capitalize` (ASCII). -/
def capitalizeTxt : Txt → Txt
  | [] => []
  | c :: s => c.toUpper :: s.map Char.toLower

/-- A value found under the key `sigma`. -/
inductive SigmaSetting where
  | swept
  | value (v : SVal)
  | other

/-- The settings that matter: the type, the values found under the key `noise_regime` (`none`: not text), whether `sigma` is learned, the
values found under the key `sigma`, the title and the proposal (`none`: not text), and `K`. -/
structure RunSettings where
  type : Txt
  regimes : List (Option Txt)
  sigmaLearned : Bool
  sigmas : List SigmaSetting
  title : Option Txt
  proposal : Option Txt
  k : Option Txt
  stamp : Stamp

/-- The noise level (`gensit/outputs.py:882-898`); `none` = exception. -/
def noiseLabel (r : RunSettings) : Option Txt :=
  match r.regimes with
  | x :: _ => x.map capitalizeTxt
  | [] =>
    if r.sigmaLearned then some "Learned".toList
    else
      match r.sigmas with
      | [.swept] => some "Sweeped".toList
      | [.value v] => some (capitalizeTxt (noiseRegime v))
      | [.other] => none
      | _ => some "Unset".toList

/-- `(x+'_') if x is not None else ''`. -/
def optPart : Option Txt → Txt
  | none => []
  | some x => x ++ ['_']

/-- `update_experiment_directory_id` without inherited id (`gensit/outputs.py:900-924`); `none` = exception. -/
def experimentId (r : RunSettings) : Option Txt :=
  match noiseLabel r with
  | none => none
  | some noise =>
    if r.type.map Char.toLower ∈ ["tablesummariesmcmcconvergence".toList, "table_mcmc_convergence".toList] then
      match r.k with
      | none => none
      | some k => some (r.type ++ ("_K".toList ++ (k ++ '_' :: (optPart r.proposal ++ (optPart r.title ++ stampText r.stamp)))))
    else if r.type.map Char.toLower = "table_mcmc".toList then
      some (r.type ++ '_' :: (optPart r.proposal ++ (optPart r.title ++ stampText r.stamp)))
    else
      some (r.type ++ '_' :: (noise ++ ("Noise_".toList ++ (optPart r.title ++ stampText r.stamp))))

/-- The output path (`gensit/outputs.py:109-114`). -/
def outputsPath (out dataset group : Txt) (r : RunSettings) : Option Txt :=
  (experimentId r).map fun i => osJoin (osJoin (osJoin out dataset) group) i

/-- The data file of a run that is not part of a sweep (`gensit/outputs.py:991-996`). -/
def dataFile (path : Txt) : Txt := osJoin (osJoin (osJoin path "samples".toList) []) "data.h5".toList

/-- What runs do to their data file: opening it with mode `w` (`gensit/outputs.py:990-998`), and appending a row to it
(`gensit/experiments.py:619-700`). -/
inductive FileEvent (α : Type) where
  | start (run : ℕ)
  | write (run : ℕ) (x : α)

/-- The effect on the files; `file i` is the data file of run `i`.  Not modelled: locks of the HDF5 library. -/
def fileStep {α : Type} (file : ℕ → Txt) (fs : Txt → Option (List α)) : FileEvent α → Txt → Option (List α)
  | .start i => fun p => if p = file i then some [] else fs p
  | .write i x => fun p => if p = file i then (fs p).map (· ++ [x]) else fs p

/-- A history. -/
def fileRun {α : Type} (file : ℕ → Txt) (fs : Txt → Option (List α)) : List (FileEvent α) → Txt → Option (List α)
  | [] => fs
  | e :: es => fileRun file (fileStep file fs e) es

/-! ### The time read from a path -/

/-- The ways to take at most `n` digits from the front, longest first (greedy `\d{…,n}`).  Only ASCII digits. -/
def digitRuns : ℕ → Txt → List (Txt × Txt)
  | 0, s => [([], s)]
  | _ + 1, [] => [([], [])]
  | n + 1, c :: s => if c.isDigit then (digitRuns n s).map (fun p => (c :: p.1, p.2)) ++ [([], c :: s)] else [([], c :: s)]

/-- The matches of `\d{l₁,h₁}_\d{l₂,h₂}_…` at the front of a text, in the order in which they are tried. -/
def rxGroups : List (ℕ × ℕ) → Txt → List Txt
  | [], _ => [[]]
  | [(lo, hi)], s => (digitRuns hi s).flatMap fun p => if lo ≤ p.1.length then [p.1] else []
  | (lo, hi) :: g :: gs, s => (digitRuns hi s).flatMap fun p =>
      if lo ≤ p.1.length then
        match p.2 with
        | [] => []
        | c :: r => if c = '_' then (rxGroups (g :: gs) r).map fun m => p.1 ++ '_' :: m else []
      else []

/-- The pattern (`gensit/outputs.py:2282`). -/
def dateGroups : List (ℕ × ℕ) := [(1, 2), (1, 2), (2, 4), (1, 2), (1, 2), (1, 2)]

/-- `date_pattern.search(dt).group(0)`: the first match at the leftmost place. -/
def dateSearch : Txt → Option Txt
  | [] => none
  | c :: s =>
    match rxGroups dateGroups (c :: s) with
    | m :: _ => some m
    | [] => dateSearch s

/-- `split('_')`. -/
def splitUnder : Txt → List Txt
  | [] => [[]]
  | c :: s =>
    if c = '_' then [] :: splitUnder s
    else
      match splitUnder s with
      | [] => [[c]]
      | g :: gs => (c :: g) :: gs

/-- The number written in digits. -/
def txtNum (s : Txt) : ℕ := s.foldl (fun n c => 10 * n + (c.toNat - 48)) 0

/-- The days of a month. -/
def monthDays (y m : ℕ) : ℕ :=
  if m = 2 then (if y % 4 = 0 ∧ (y % 100 ≠ 0 ∨ y % 400 = 0) then 29 else 28)
  else if m = 4 ∨ m = 6 ∨ m = 9 ∨ m = 11 then 30 else 31

/-- Whether the clock can show this (the constructor of `datetime`). -/
def Stamp.ok (s : Stamp) : Bool :=
  decide (1 ≤ s.year ∧ 1 ≤ s.month ∧ s.month ≤ 12 ∧ 1 ≤ s.day ∧ s.day ≤ monthDays s.year s.month ∧ s.hour < 24 ∧ s.minute < 60 ∧ s.second < 60)

/-- `datetime.strptime(…, "%d_%m_%Y_%H_%M_%S")` of a match of the pattern; `none` = exception.  The year must have four digits. -/
def parseStamp (t : Txt) : Option Stamp :=
  match splitUnder t with
  | [d, m, y, h, mi, s] =>
    if y.length = 4 then
      let st : Stamp := ⟨txtNum d, txtNum m, txtNum y, txtNum h, txtNum mi, txtNum s⟩
      if st.ok then some st else none
    else none
  | _ => none

/-- The order of times as numbers. -/
def Stamp.code (s : Stamp) : ℕ :=
  ((((s.year * 13 + s.month) * 32 + s.day) * 24 + s.hour) * 60 + s.minute) * 60 + s.second

/-- The key by which folders are sorted (`gensit/outputs.py:2283-2291`); `none` = exception. -/
def pathTime (path : Txt) : Option ℕ := ((dateSearch path).bind parseStamp).map Stamp.code

end GeNSIT
