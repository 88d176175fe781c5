import Mathlib.Data.List.Infix
import Mathlib.Data.List.Basic

/-!
# The objects an expression refers to

`Outputs.instantiate_object_from_expression` and `check_object_availability` (`gensit/outputs.py:1677-1790`): before a keyword expression such as
`outputs.ct_mcmc.table_loss` is evaluated for a summary, the objects named after `outputs.` are built.
-/

namespace GeNSIT

/-! ## Finding the names -/

/-- `\w`. Letters outside ASCII are not modelled. -/
def wordChar (c : Char) : Bool := c.isAlphanum || c == '_'

/-- `\b` between two characters (or the ends of the text). -/
def wordBoundary (prev next : Option Char) : Bool := prev.any wordChar != next.any wordChar

/-- `[^.]*\b` (`outputs.py:1690`): greedy, so the longest run without a dot that ends at a word boundary. -/
def runMatch (prev : Option Char) : List Char → Option (List Char)
  | [] => if wordBoundary prev none then some [] else none
  | c :: r =>
    let here := if wordBoundary prev (some c) then some [] else none
    if c = '.' then here else match runMatch (some c) r with
      | some t => some (c :: t)
      | none => here

/-- `re.findall(rf'\b{object_name}\.[^.]*\b', expression)` with `obj.split(f"{object_name}.")[-1]` (`outputs.py:1690-1691`): the text after the
dot of every match, from left to right without overlap (`skip` characters belong to the previous match). As the match has a single dot, what
comes after the name of the object and the dot is what follows that dot. -/
def findCalls (obj : List Char) : (skip : ℕ) → (prev : Option Char) → List Char → List (List Char)
  | _, _, [] => []
  | skip + 1, _, c :: r => findCalls obj skip (some c) r
  | 0, prev, c :: r =>
    if wordBoundary prev (some c) && (obj ++ ['.']).isPrefixOf (c :: r) then
      match runMatch (some '.') ((c :: r).drop (obj.length + 1)) with
      | some t => t :: findCalls obj (obj.length + t.length) (some c) r
      | none => findCalls obj 0 (some c) r
    else findCalls obj 0 (some c) r

/-! ## Building the objects -/

/-- The names with a branch (`outputs.py:1693-1790`), and `sim`, which only occurs as a requirement (`outputs.py:1745`). -/
inductive ObjName
  | config | inputs | sim | ct | ctMcmc | intensityModel | physicsModel | neuralNetwork | learningModel
  deriving DecidableEq

/-- The branch taken for a name; other names are passed over. -/
def objOf (name : List Char) : Option ObjName :=
  if name = "config".toList then some .config
  else if name = "inputs".toList then some .inputs
  else if name = "ct".toList then some .ct
  else if name = "ct_mcmc".toList then some .ctMcmc
  else if name = "intensity_model".toList then some .intensityModel
  else if name = "physics_model".toList then some .physicsModel
  else if name = "neural_network".toList then some .neuralNetwork
  else if name = "learning_model".toList then some .learningModel
  else none

/-- What can go wrong: configuration or inputs missing, a constructor failing, an attribute that was never set, a missing key, an operand of the
wrong type. -/
inductive ObjErr
  | data | constructor | attribute | key | type
  deriving DecidableEq

/-- The outputs object: which objects it has, and whether `config['neural_network']` still has its `loss`. -/
structure ObjState where
  has : ObjName → Bool
  loss : Bool

def ObjState.add (s : ObjState) (o : ObjName) : ObjState := { s with has := fun x => if x = o then true else s.has x }

abbrev ObjResult := ObjState × Except ObjErr Unit

/-- Run the next step if the previous one succeeded. -/
def ObjResult.next (r : ObjResult) (f : ObjState → ObjResult) : ObjResult :=
  match r.2 with
  | .ok _ => f r.1
  | .error _ => r

/-- Requirement of `config` or `inputs`: if missing, instantiating it raises (`outputs.py:1678-1687`, `1693-1697`). -/
def needData (o : ObjName) (s : ObjState) : ObjResult := if s.has o then (s, .ok ()) else (s, .error .data)

/-- A constructor is called; `works o` tells whether it succeeds. -/
def construct (works : ObjName → Bool) (o : ObjName) (s : ObjState) : ObjResult :=
  if works o then (s.add o, .ok ()) else (s, .error .constructor)

/-- `ct` (`outputs.py:1699-1712`). -/
def buildCt (works : ObjName → Bool) (s : ObjState) : ObjResult :=
  ((needData .config s).next (needData .inputs)).next (construct works .ct)

/-- `ct_mcmc` (`outputs.py:1714-1725`); `safe_delete` deletes a local name only, the table stays. -/
def buildCtMcmc (works : ObjName → Bool) (s : ObjState) : ObjResult :=
  (if s.has .ct then (s, .ok ()) else buildCt works s : ObjResult).next (construct works .ctMcmc)

/-- `intensity_model` (`outputs.py:1727-1740`). -/
def buildIntensity (works : ObjName → Bool) (s : ObjState) : ObjResult :=
  ((needData .config s).next (needData .inputs)).next (construct works .intensityModel)

/-- `physics_model` (`outputs.py:1742-1756`): the requirement `sim` is looked for and, if missing, no branch builds it; the intensity model that
is then used is not required. Without it or without inputs an attribute is missing. -/
def buildPhysics (works : ObjName → Bool) (s : ObjState) : ObjResult :=
  (needData .config s).next fun s =>
    if s.has .intensityModel && s.has .inputs then construct works .physicsModel s else (s, .error .attribute)

/-- `neural_network` (`outputs.py:1758-1770`). -/
def buildNN (works : ObjName → Bool) (s : ObjState) : ObjResult :=
  ((needData .config s).next (needData .inputs)).next (construct works .neuralNetwork)

/-- `learning_model` (`outputs.py:1772-1790`): the arguments are evaluated in order: `pop('loss')` removes the loss from the configuration, and
`write_start = 0 **kwargs` (a missing comma) raises zero to the power of a dictionary. -/
def buildLearning (works : ObjName → Bool) (s : ObjState) : ObjResult :=
  (((needData .config s).next fun s => if s.has .neuralNetwork then (s, .ok ()) else buildNN works s).next
    fun s => if s.has .physicsModel then (s, .ok ()) else buildPhysics works s).next
    fun s => if s.loss then ({ s with loss := false }, .error .type) else (s, .error .key)

/-- The branches (`outputs.py:1693-1790`). -/
def buildObj (works : ObjName → Bool) (o : ObjName) (s : ObjState) : ObjResult :=
  match o with
  | .config => needData .config s
  | .inputs => needData .inputs s
  | .sim => (s, .ok ())
  | .ct => buildCt works s
  | .ctMcmc => buildCtMcmc works s
  | .intensityModel => buildIntensity works s
  | .physicsModel => buildPhysics works s
  | .neuralNetwork => buildNN works s
  | .learningModel => buildLearning works s

/-- The loop over the names found (`outputs.py:1690-1790`). -/
def buildCalls (works : ObjName → Bool) : List (List Char) → ObjState → ObjResult
  | [], s => (s, .ok ())
  | n :: r, s => match objOf n with
    | none => buildCalls works r s
    | some o => (buildObj works o s).next (buildCalls works r)

/-- `instantiate_object_from_expression(expression, object_name = 'outputs')` (`outputs.py:1689-1790`). -/
def instantiateObjs (works : ObjName → Bool) (expression : List Char) (s : ObjState) : ObjResult :=
  buildCalls works (findCalls "outputs".toList 0 none expression) s

/-! ## Specification -/

/-- The text without the characters at its end that are not part of a word. -/
def Spec.trimEnd (t : List Char) : List Char := (t.reverse.dropWhile fun c => !wordChar c).reverse

/-- A piece of text that does not mention `obj.` and after which a mention may begin. -/
def Spec.Between (obj pre : List Char) : Prop := ¬ (obj ++ ['.']) <:+: (pre ++ obj) ∧ ∀ c, pre.getLast? = some c → wordChar c = false

/-- The text in which the given names are each mentioned as `obj.name.`, with other text before each. -/
def Spec.mentions (obj : List Char) (ms : List (List Char × List Char)) (post : List Char) : List Char :=
  (ms.map fun m => m.1 ++ (obj ++ '.' :: (m.2 ++ ['.']))).flatten ++ post

/-! ## Lemmas -/

theorem Spec.trimEnd_append_word (t : List Char) (c : Char) (h : wordChar c = true) : Spec.trimEnd (t ++ [c]) = t ++ [c] := by
  simp [Spec.trimEnd, List.reverse_append, h]

theorem Spec.trimEnd_append_other (t : List Char) (c : Char) (h : wordChar c = false) : Spec.trimEnd (t ++ [c]) = Spec.trimEnd t := by
  simp [Spec.trimEnd, List.reverse_append, h]

theorem Spec.trimEnd_nil_iff (t : List Char) : Spec.trimEnd t = [] ↔ ∀ c ∈ t, wordChar c = false := by
  unfold Spec.trimEnd
  rw [List.reverse_eq_nil_iff]
  constructor
  · intro h c hc
    by_contra hw
    have h2 : ∀ l : List Char, c ∈ l → l.dropWhile (fun c => !wordChar c) ≠ [] := by
      intro l
      induction l with
      | nil => simp
      | cons a l ih =>
        intro hm
        rw [List.dropWhile_cons]
        split
        · rename_i ha
          rcases List.mem_cons.1 hm with rfl | hm
          · exact absurd (by simpa using ha) hw
          · exact ih hm
        · simp
    exact h2 t.reverse (by simpa using hc) h
  · intro h
    have h2 : ∀ l : List Char, (∀ c ∈ l, wordChar c = false) → l.dropWhile (fun c => !wordChar c) = [] := by
      intro l
      induction l with
      | nil => simp
      | cons a l ih =>
        intro hl
        rw [List.dropWhile_cons, if_pos (by simp [hl a])]
        exact ih fun c hc => hl c (by simp [hc])
    exact h2 _ fun c hc => h c (by simpa using hc)

theorem Spec.trimEnd_cons (c : Char) (t : List Char) : Spec.trimEnd (c :: t) =
    if wordChar c = true ∨ Spec.trimEnd t ≠ [] then c :: Spec.trimEnd t else [] := by
  unfold Spec.trimEnd
  rw [List.reverse_cons, List.dropWhile_append]
  by_cases h : (List.dropWhile (fun c => !wordChar c) t.reverse).isEmpty = true
  · rw [if_pos h]
    have h' : List.dropWhile (fun c => !wordChar c) t.reverse = [] := by simpa using h
    rw [h']
    by_cases hc : wordChar c = true
    · simp [hc]
    · simp [hc]
  · rw [if_neg h]
    have h' : List.dropWhile (fun c => !wordChar c) t.reverse ≠ [] := by simpa using h
    rw [List.reverse_append, if_pos (Or.inr (by simpa using h'))]
    rfl

theorem dot_not_word : wordChar '.' = false := by decide

/-- The greedy run is the text up to the next dot without what is not part of a word at its end. -/
theorem runMatch_eq (run tail : List Char) (hr : '.' ∉ run) (ht : ∀ c, tail.head? = some c → c = '.') (prev : Option Char) :
    runMatch prev (run ++ tail) =
      if Spec.trimEnd run ≠ [] then some (Spec.trimEnd run) else if prev.any wordChar then some [] else none := by
  induction run generalizing prev with
  | nil =>
    have : Spec.trimEnd [] = [] := rfl
    rw [this, if_neg (by simp)]
    cases tail with
    | nil =>
      simp [runMatch, wordBoundary]
    | cons c r =>
      obtain rfl := ht c rfl
      simp only [List.nil_append, runMatch, wordBoundary, if_true, Option.any_some, dot_not_word]
      cases hp : prev.any wordChar <;> simp
  | cons c run ih =>
    have hc : c ≠ '.' := fun hh => hr (by simp [hh])
    have hr' : '.' ∉ run := fun hh => hr (by simp [hh])
    rw [List.cons_append]
    simp only [runMatch, if_neg hc]
    rw [ih hr', Spec.trimEnd_cons]
    by_cases h : Spec.trimEnd run ≠ []
    · simp [h]
    · simp only [h, if_false, Option.any_some, ne_eq, or_false]
      have h0 : Spec.trimEnd run = [] := by simpa using h
      by_cases hw : wordChar c = true
      · simp [hw, h0]
      · simp only [hw, if_false, not_true_eq_false, wordBoundary, Option.any_some, Bool.false_eq_true]
        cases hp : prev.any wordChar <;> simp

theorem findCalls_skip (obj a b : List Char) (prev : Option Char) :
    findCalls obj a.length prev (a ++ b) = findCalls obj 0 ((a.getLast?).or prev) b := by
  induction a generalizing prev with
  | nil => simp
  | cons c a ih =>
    simp only [List.length_cons, List.cons_append]
    rw [findCalls, ih]
    congr 1
    cases a with
    | nil => simp
    | cons d a =>
      rw [List.getLast?_cons_cons]
      have : ((d :: a).getLast?).isSome = true := by simp
      obtain ⟨x, hx⟩ := Option.isSome_iff_exists.1 this
      rw [hx]
      simp

/-- A mention of the object is a match, whose text is trimmed; the search goes on behind it. -/
theorem findCalls_mention (obj run tail : List Char) (ho : obj ≠ []) (how : ∀ c ∈ obj, wordChar c = true) (hr : '.' ∉ run)
    (ht : ∀ c, tail.head? = some c → c = '.') (hw : Spec.trimEnd run ≠ []) (prev : Option Char) (hp : prev.any wordChar = false) :
    findCalls obj 0 prev (obj ++ '.' :: (run ++ tail)) =
      Spec.trimEnd run :: findCalls obj 0 ((Spec.trimEnd run).getLast?) (run.drop (Spec.trimEnd run).length ++ tail) := by
  cases obj with
  | nil => exact absurd rfl ho
  | cons c o =>
    have hpre : ((c :: o) ++ ['.']).isPrefixOf (c :: (o ++ '.' :: (run ++ tail))) = true := by
      rw [List.isPrefixOf_iff_prefix]
      exact ⟨run ++ tail, by simp⟩
    have hdrop : List.drop ((c :: o).length + 1) (c :: (o ++ '.' :: (run ++ tail))) = run ++ tail := by
      rw [List.length_cons, List.drop_succ_cons]
      rw [show o ++ '.' :: (run ++ tail) = (o ++ ['.']) ++ (run ++ tail) by simp, List.drop_left' (by simp)]
    rw [List.cons_append, findCalls]
    rw [hpre, hdrop, runMatch_eq run tail hr ht, if_pos hw]
    have hb : wordBoundary prev (some c) = true := by
      simp [wordBoundary, hp, how c (by simp)]
    rw [hb]
    simp only [Bool.and_self, if_true]
    congr 1
    obtain ⟨rest, hrest⟩ : ∃ rest, run = Spec.trimEnd run ++ rest := by
      refine ⟨(run.reverse.takeWhile fun c => !wordChar c).reverse, ?_⟩
      unfold Spec.trimEnd
      rw [← List.reverse_append, List.takeWhile_append_dropWhile, List.reverse_reverse]
    have hd : run.drop (Spec.trimEnd run).length = rest := by
      have := List.drop_left (l₁ := Spec.trimEnd run) (l₂ := rest)
      rwa [← hrest] at this
    rw [hd]
    have e1 : o ++ '.' :: (run ++ tail) = (o ++ '.' :: Spec.trimEnd run) ++ (rest ++ tail) := by
      rw [show run ++ tail = Spec.trimEnd run ++ (rest ++ tail) by rw [← List.append_assoc, ← hrest]]
      simp
    have e2 : (c :: o).length + (Spec.trimEnd run).length = (o ++ '.' :: Spec.trimEnd run).length := by simp; omega
    rw [e1, e2, findCalls_skip]
    congr 1
    obtain ⟨x, hx⟩ : ∃ x, (Spec.trimEnd run).getLast? = some x := by
      apply Option.isSome_iff_exists.1
      simpa [List.getLast?_isSome] using hw
    rw [hx, List.getLast?_append, List.getLast?_cons]
    simp [hx]

/-- Text without a mention is passed over. -/
theorem findCalls_pass (obj pre rest : List Char) (h : ¬ (obj ++ ['.']) <:+: (pre ++ obj)) (hrest : obj <+: rest ∨ rest = []) (prev : Option Char) :
    findCalls obj 0 prev (pre ++ rest) = findCalls obj 0 ((pre.getLast?).or prev) rest := by
  induction pre generalizing prev with
  | nil => simp
  | cons c pre ih =>
    rw [List.cons_append, findCalls]
    have hnp : (obj ++ ['.']).isPrefixOf (c :: (pre ++ rest)) = false := by
      rw [Bool.eq_false_iff]
      intro hp
      rw [List.isPrefixOf_iff_prefix] at hp
      apply h
      rcases hrest with ⟨r, rfl⟩ | rfl
      · -- the mention would end inside `pre ++ obj`, as `obj.` is one longer than `obj`
        have : (obj ++ ['.']) <+: (c :: pre ++ obj) := by
          refine List.prefix_of_prefix_length_le hp ⟨r, by simp⟩ ?_
          simp
        exact this.isInfix
      · rw [List.append_nil] at hp
        exact (hp.trans ⟨obj, by simp⟩).isInfix
    rw [hnp, Bool.and_false]
    simp only [Bool.false_eq_true, if_false]
    rw [ih (fun hi => h (hi.trans (List.suffix_cons c _).isInfix))]
    congr 1
    cases pre with
    | nil => simp
    | cons d a =>
      rw [List.getLast?_cons_cons]
      have : ((d :: a).getLast?).isSome = true := by simp
      obtain ⟨x, hx⟩ := Option.isSome_iff_exists.1 this
      rw [hx]
      simp

/-! ## C132 -/

/-- C132: if an expression mentions objects only as `outputs.name.` (each mention followed by a dot), exactly these names are found, in
order. -/
theorem C132_found_partial (obj : List Char) (ho : obj ≠ []) (how : ∀ c ∈ obj, wordChar c = true) (ms : List (List Char × List Char))
    (post : List Char) (hb : ∀ m ∈ ms, Spec.Between obj m.1) (hn : ∀ m ∈ ms, m.2 ≠ [] ∧ ∀ c ∈ m.2, wordChar c = true)
    (hp : ¬ (obj ++ ['.']) <:+: (post ++ obj)) : findCalls obj 0 none (Spec.mentions obj ms post) = ms.map (·.2) := by
  have hdot : ∀ c ∈ obj, c ≠ '.' := by
    rintro c hc rfl
    have := how _ hc
    rw [dot_not_word] at this
    simp at this
  have key : ∀ (lead : List Char) (prev : Option Char), (lead = [] ∧ prev = none ∨ lead = ['.']) →
      findCalls obj 0 prev (lead ++ Spec.mentions obj ms post) = ms.map (·.2) := by
    induction ms with
    | nil =>
      intro lead prev hl
      have hpost : findCalls obj 0 prev ((lead ++ post) ++ []) = findCalls obj 0 (((lead ++ post).getLast?).or prev) [] := by
        apply findCalls_pass _ _ _ _ (Or.inr rfl)
        rcases hl with ⟨rfl, _⟩ | rfl
        · exact hp
        · intro hi
          rw [List.append_assoc, List.singleton_append, List.infix_cons_iff] at hi
          rcases hi with hi | hi
          · cases obj with
            | nil => exact ho rfl
            | cons c o => exact hdot c (by simp) (List.cons_prefix_cons.1 hi).1
          · exact hp hi
      simp only [List.append_nil] at hpost
      simp only [Spec.mentions, List.map_nil, List.flatten_nil, List.nil_append]
      rw [hpost]
      rfl
    | cons m ms ih =>
      intro lead prev hl
      obtain ⟨hb1, hb2⟩ := hb m (by simp)
      obtain ⟨hn1, hn2⟩ := hn m (by simp)
      have e : lead ++ Spec.mentions obj (m :: ms) post =
          (lead ++ m.1) ++ (obj ++ '.' :: (m.2 ++ (['.'] ++ Spec.mentions obj ms post))) := by
        simp [Spec.mentions]
      rw [e, findCalls_pass]
      · have hprev : (((lead ++ m.1).getLast?).or prev).any wordChar = false := by
          cases hm : m.1.getLast? with
          | some c =>
            rw [List.getLast?_append, hm]
            simpa using hb2 c hm
          | none =>
            rw [List.getLast?_eq_none_iff] at hm
            rw [hm, List.append_nil]
            rcases hl with ⟨rfl, rfl⟩ | rfl
            · rfl
            · simpa using dot_not_word
        have htrim : Spec.trimEnd m.2 = m.2 := by
          rw [← List.dropLast_append_getLast hn1]
          exact Spec.trimEnd_append_word _ _ (hn2 _ (List.getLast_mem _))
        have hdot2 : '.' ∉ m.2 := by
          intro hc
          have := hn2 _ hc
          rw [dot_not_word] at this
          simp at this
        rw [findCalls_mention obj m.2 (['.'] ++ Spec.mentions obj ms post) ho how hdot2 (by simp) (by rw [htrim]; exact hn1) _ hprev]
        rw [htrim, List.drop_length, List.nil_append, List.map_cons,
          ih (fun m' hm' => hb m' (by simp [hm'])) (fun m' hm' => hn m' (by simp [hm'])) ['.'] _ (Or.inr rfl)]
      · rcases hl with ⟨rfl, _⟩ | rfl
        · exact hb1
        · intro hi
          rw [List.append_assoc, List.singleton_append, List.infix_cons_iff] at hi
          rcases hi with hi | hi
          · cases obj with
            | nil => exact ho rfl
            | cons c o => exact hdot c (by simp) (List.cons_prefix_cons.1 hi).1
          · exact hb1 hi
      · exact Or.inl ⟨_, rfl⟩
  simpa using key [] none (Or.inl ⟨rfl, rfl⟩)

example : findCalls "outputs".toList 0 none "xr.dot(outputs.ct.margins, outputs.inputs.data)".toList = ["ct".toList, "inputs".toList] := by
  decide +kernel

example : Spec.mentions "outputs".toList [("xr.dot(".toList, "ct".toList), ("margins, ".toList, "inputs".toList)] "data)".toList =
      "xr.dot(outputs.ct.margins, outputs.inputs.data)".toList ∧
    Spec.Between "outputs".toList "xr.dot(".toList ∧ Spec.Between "outputs".toList "margins, ".toList := by
  refine ⟨by decide +kernel, ⟨by decide +kernel, ?_⟩, ⟨by decide +kernel, ?_⟩⟩
  · intro c hc
    have : c = '(' := by simpa using hc.symm
    subst this; decide
  · intro c hc
    have : c = ' ' := by simpa using hc.symm
    subst this; decide

/-- C132: what counts as a mention is a word of its own: text in which the name of the object and the dot only occur as the end of a longer word
(letters, digits and underscores) mentions nothing. -/
theorem C132_own_word (obj : List Char) (ho : obj ≠ []) (how : ∀ c ∈ obj, c.isAlphanum = true ∨ c = '_') (text : List Char)
    (h : ∀ a b, text = a ++ (obj ++ '.' :: b) → ∃ c, a.getLast? = some c ∧ (c.isAlphanum = true ∨ c = '_')) :
    findCalls obj 0 none text = [] := by
  have hw : ∀ c : Char, (c.isAlphanum = true ∨ c = '_') → wordChar c = true := by
    intro c hc
    unfold wordChar
    rcases hc with hc | rfl
    · rw [hc]; rfl
    · rfl
  have key : ∀ (text : List Char) (prev : Option Char),
      (∀ a b, text = a ++ (obj ++ '.' :: b) → ∃ c, (match a.getLast? with | some c => some c | none => prev) = some c ∧ (c.isAlphanum = true ∨ c = '_')) →
      findCalls obj 0 prev text = [] := by
    intro text
    induction text with
    | nil => intro prev _; rfl
    | cons c r ih =>
      intro prev hp
      have hrest : findCalls obj 0 (some c) r = [] := by
        apply ih
        intro a b hab
        obtain ⟨c', h1, h2⟩ := hp (c :: a) b (by rw [hab]; rfl)
        cases a with
        | nil =>
          simp only [List.getLast?_singleton] at h1
          exact ⟨c', by simpa using h1, h2⟩
        | cons x a =>
          refine ⟨c', ?_, h2⟩
          have : (c :: x :: a).getLast? = (x :: a).getLast? := by simp [List.getLast?_cons]
          rw [this] at h1
          exact h1
      simp only [findCalls]
      rw [if_neg, hrest]
      intro hc
      rw [Bool.and_eq_true] at hc
      obtain ⟨hb, hpre⟩ := hc
      obtain ⟨t, ht⟩ := List.isPrefixOf_iff_prefix.1 hpre
      obtain ⟨c', h1, h2⟩ := hp [] t (by rw [← ht]; simp)
      simp only [List.getLast?_nil] at h1
      subst h1
      have hcw : wordChar c = true := by
        cases obj with
        | nil => exact absurd rfl ho
        | cons o os =>
          simp only [List.cons_append, List.cons.injEq] at ht
          rw [← ht.1]
          exact hw _ (how o (by simp))
      simp [wordBoundary, hw c' h2, hcw] at hb
  apply key
  intro a b hab
  obtain ⟨c, h1, h2⟩ := h a b hab
  exact ⟨c, by rw [h1], h2⟩

example : findCalls "outputs".toList 0 none "my_outputs.ct.x + suboutputs.inputs.y".toList = [] := by decide +kernel

/-- C132: in general the name found for a mention is all text up to the next dot (or the end), without what does not belong to a word at its
end; so a name is found as such exactly if nothing that belongs to a word comes between it and the next dot. -/
theorem C132_name_iff (obj pre name sep tail : List Char) (ho : obj ≠ []) (how : ∀ c ∈ obj, wordChar c = true) (hb : Spec.Between obj pre)
    (hn : name ≠ [] ∧ ∀ c ∈ name, wordChar c = true) (hs : '.' ∉ sep) (ht : ∀ c, tail.head? = some c → c = '.') :
    (findCalls obj 0 none (pre ++ (obj ++ '.' :: ((name ++ sep) ++ tail)))).head? = some name ↔ ∀ c ∈ sep, wordChar c = false := by
  rw [findCalls_pass obj pre _ hb.1 (Or.inl ⟨_, rfl⟩)]
  have hdot2 : '.' ∉ name ++ sep := by
    intro hc
    rcases List.mem_append.1 hc with hc | hc
    · have := hn.2 _ hc
      rw [dot_not_word] at this
      simp at this
    · exact hs hc
  have htn : Spec.trimEnd name = name := by
    rw [← List.dropLast_append_getLast hn.1]
    exact Spec.trimEnd_append_word _ _ (hn.2 _ (List.getLast_mem _))
  have hne : Spec.trimEnd (name ++ sep) ≠ [] := by
    rw [Ne, Spec.trimEnd_nil_iff]
    intro h
    obtain ⟨c, r, rfl⟩ := List.exists_cons_of_ne_nil hn.1
    have h1 := h c (by simp)
    have h2 := hn.2 c (by simp)
    rw [h1] at h2
    simp at h2
  have hprev : ((pre.getLast?).or none).any wordChar = false := by
    cases hm : pre.getLast? with
    | none => rfl
    | some c => simpa using hb.2 c hm
  rw [findCalls_mention obj (name ++ sep) tail ho how hdot2 ht hne _ hprev, List.head?_cons, Option.some.injEq]
  have happ : ∀ s : List Char, (Spec.trimEnd (name ++ s) = name ↔ ∀ c ∈ s, wordChar c = false) := by
    intro s
    have hgen : Spec.trimEnd (name ++ s) = if Spec.trimEnd s = [] then Spec.trimEnd name else name ++ Spec.trimEnd s := by
      unfold Spec.trimEnd
      rw [List.reverse_append, List.dropWhile_append]
      by_cases h : (List.dropWhile (fun c => !wordChar c) s.reverse).isEmpty = true
      · rw [if_pos h, if_pos (by simpa using h)]
      · rw [if_neg h, if_neg (by simpa using h)]
        simp
    rw [hgen, htn, ← Spec.trimEnd_nil_iff]
    by_cases h : Spec.trimEnd s = []
    · simp [h]
    · simp [h]
  exact happ sep

/-- C132: so a mention that is not directly followed by a dot is missed, and so is the next one. -/
theorem C132_found_false : ¬ ∀ (pre name sep tail : List Char), Spec.Between "outputs".toList pre → (name ≠ [] ∧ ∀ c ∈ name, wordChar c = true) →
    (∀ c, sep.head? = some c → wordChar c = false) →
    name ∈ findCalls "outputs".toList 0 none (pre ++ ("outputs".toList ++ '.' :: ((name ++ sep) ++ tail))) := by
  intro h
  have := h "f(".toList "ct".toList ", outputs".toList ".inputs)".toList ⟨by decide +kernel, by
    intro c hc
    have : c = '(' := by simpa using hc.symm
    subst this; decide⟩ (by decide) (by
    intro c hc
    have : c = ',' := by simpa using hc.symm
    subst this; decide)
  revert this
  decide +kernel

/-! ### Building -/

theorem next_ok {r : ObjResult} {f : ObjState → ObjResult} (h : r.2 = .ok ()) : r.next f = f r.1 := by
  unfold ObjResult.next; rw [h]

theorem next_isOk {r : ObjResult} {f : ObjState → ObjResult} : (r.next f).2 = .ok () ↔ r.2 = .ok () ∧ (f r.1).2 = .ok () := by
  unfold ObjResult.next
  cases h : r.2 with
  | ok u => simp
  | error e => simp [h]

/-- The objects that can be built from configuration and inputs. -/
def Spec.buildable : List ObjName := [.config, .inputs, .ct, .ctMcmc, .intensityModel, .neuralNetwork]

theorem buildObj_ok (works : ObjName → Bool) (hw : ∀ o, works o = true) (o : ObjName) (ho : o ∈ Spec.buildable) (s : ObjState)
    (h1 : s.has .config = true) (h2 : s.has .inputs = true) :
    (buildObj works o s).2 = .ok () ∧ (buildObj works o s).1.has o = true ∧ (buildObj works o s).1.loss = s.loss ∧
      ∀ x, s.has x = true → (buildObj works o s).1.has x = true := by
  simp only [Spec.buildable, List.mem_cons, List.not_mem_nil, or_false] at ho
  rcases ho with rfl | rfl | rfl | rfl | rfl | rfl
  · simp [buildObj, needData, h1]
  · simp [buildObj, needData, h2]
  · simp +contextual [buildObj, buildCt, needData, h1, h2, ObjResult.next, construct, hw, ObjState.add]
  · by_cases hc : s.has .ct = true
    · simp +contextual [buildObj, buildCtMcmc, ObjResult.next, construct, hw, ObjState.add, hc]
    · simp +contextual [buildObj, buildCtMcmc, buildCt, needData, h1, h2, ObjResult.next, construct, hw, ObjState.add, hc]
  · simp +contextual [buildObj, buildIntensity, needData, h1, h2, ObjResult.next, construct, hw, ObjState.add]
  · simp +contextual [buildObj, buildNN, needData, h1, h2, ObjResult.next, construct, hw, ObjState.add]

/-- C132: with configuration and inputs at hand and constructors that work, every object found that can be built from these is there
afterwards, nothing that was there is lost, and the configuration is unchanged. -/
theorem C132_built_partial (works : ObjName → Bool) (hw : ∀ o, works o = true) (calls : List (List Char)) (s : ObjState)
    (h1 : s.has .config = true) (h2 : s.has .inputs = true) (hb : ∀ n ∈ calls, ∀ o, objOf n = some o → o ∈ Spec.buildable) :
    ∃ s', buildCalls works calls s = (s', .ok ()) ∧ (∀ n ∈ calls, ∀ o, objOf n = some o → s'.has o = true) ∧
      (∀ x, s.has x = true → s'.has x = true) ∧ s'.loss = s.loss := by
  induction calls generalizing s with
  | nil => exact ⟨s, rfl, by simp, fun _ h => h, rfl⟩
  | cons n r ih =>
    simp only [buildCalls]
    cases hn : objOf n with
    | none =>
      obtain ⟨s', e1, e2, e3, e4⟩ := ih s h1 h2 fun m hm => hb m (by simp [hm])
      refine ⟨s', e1, ?_, e3, e4⟩
      intro m hm o ho
      rcases List.mem_cons.1 hm with rfl | hm
      · rw [hn] at ho; simp at ho
      · exact e2 m hm o ho
    | some o =>
      obtain ⟨k1, k2, k3, k4⟩ := buildObj_ok works hw o (hb n (by simp) o hn) s h1 h2
      simp only
      rw [next_ok k1]
      obtain ⟨s', e1, e2, e3, e4⟩ := ih (buildObj works o s).1 (k4 _ h1) (k4 _ h2) fun m hm => hb m (by simp [hm])
      refine ⟨s', e1, ?_, fun x hx => e3 x (k4 x hx), e4.trans k3⟩
      intro m hm o' ho'
      rcases List.mem_cons.1 hm with rfl | hm
      · rw [hn] at ho'
        obtain rfl := Option.some.inj ho'
        exact e3 _ k2
      · exact e2 m hm o' ho'

/-- Only configuration and inputs. -/
def exObjects : ObjState := ⟨fun o => o = .config ∨ o = .inputs, true⟩

example : exObjects.has .config = true ∧ exObjects.has .inputs = true ∧
    (∀ n ∈ findCalls "outputs".toList 0 none "outputs.ct_mcmc.table_loss".toList, ∀ o, objOf n = some o → o ∈ Spec.buildable) ∧
    (instantiateObjs (fun _ => true) "outputs.ct_mcmc.table_loss".toList exObjects).1.has .ctMcmc = true := by
  refine ⟨by decide, by decide, ?_, by decide +kernel⟩
  have : findCalls "outputs".toList 0 none "outputs.ct_mcmc.table_loss".toList = ["ct_mcmc".toList] := by decide +kernel
  rw [this]
  intro n hn o ho
  simp only [List.mem_singleton] at hn
  subst hn
  have : objOf "ct_mcmc".toList = some .ctMcmc := by decide +kernel
  rw [this] at ho
  obtain rfl := Option.some.inj ho
  decide

/-- C132: so with configuration and inputs at hand and constructors that work, an expression that mentions one of these objects by its name
(followed by a dot) finds it. -/
theorem C132_available_partial (works : ObjName → Bool) (hw : ∀ o, works o = true) (s : ObjState) (h1 : s.has .config = true)
    (h2 : s.has .inputs = true) (pre post : List Char) (hb : Spec.Between "outputs".toList pre)
    (hp : ¬ ("outputs".toList ++ ['.']) <:+: (post ++ "outputs".toList)) :
    ∀ e ∈ [("config", ObjName.config), ("inputs", .inputs), ("ct", .ct), ("ct_mcmc", .ctMcmc), ("intensity_model", .intensityModel),
      ("neural_network", .neuralNetwork)],
      ∃ s', instantiateObjs works (pre ++ "outputs.".toList ++ e.1.toList ++ ['.'] ++ post) s = (s', .ok ()) ∧ s'.has e.2 = true := by
  intro e he
  have hword : ∀ n ∈ ["config", "inputs", "ct", "ct_mcmc", "intensity_model", "neural_network"],
      n.toList ≠ [] ∧ ∀ c ∈ n.toList, wordChar c = true := by decide +kernel
  have hobj : ∀ e ∈ [("config", ObjName.config), ("inputs", .inputs), ("ct", .ct), ("ct_mcmc", .ctMcmc), ("intensity_model", .intensityModel),
      ("neural_network", .neuralNetwork)], objOf e.1.toList = some e.2 ∧ e.2 ∈ Spec.buildable ∧
        e.1 ∈ ["config", "inputs", "ct", "ct_mcmc", "intensity_model", "neural_network"] := by decide +kernel
  obtain ⟨ho, hbu, hm⟩ := hobj e he
  have hf := C132_found_partial "outputs".toList (by decide) (by decide +kernel) [(pre, e.1.toList)] post
    (by intro m hm; simp only [List.mem_singleton] at hm; subst hm; exact hb)
    (by intro m hm'; simp only [List.mem_singleton] at hm'; subst hm'; exact hword _ hm) hp
  have htext : Spec.mentions "outputs".toList [(pre, e.1.toList)] post = pre ++ "outputs.".toList ++ e.1.toList ++ ['.'] ++ post := by
    have : "outputs.".toList = "outputs".toList ++ ['.'] := by decide +kernel
    rw [this]
    simp [Spec.mentions]
  rw [htext] at hf
  obtain ⟨s', e1, e2, _⟩ := C132_built_partial works hw [e.1.toList] s h1 h2 (by
    intro n hn o hno
    simp only [List.mem_singleton] at hn
    subst hn
    rw [ho] at hno
    obtain rfl := Option.some.inj hno
    exact hbu)
  refine ⟨s', ?_, e2 _ (by simp) _ ho⟩
  unfold instantiateObjs
  rw [hf]
  exact e1

example : Spec.Between "outputs".toList "2*".toList ∧ ¬ ("outputs".toList ++ ['.']) <:+: ("margins".toList ++ "outputs".toList) ∧
    (instantiateObjs (fun _ => true) "2*outputs.ct_mcmc.margins".toList exObjects).1.has .ctMcmc = true := by
  refine ⟨⟨by decide +kernel, ?_⟩, by decide +kernel, by decide +kernel⟩
  intro c hc
  have : c = '*' := by simpa using hc.symm
  subst this; decide

/-- C132: the physics model can be built exactly if an intensity model was built before, which is not among its requirements. -/
theorem C132_physics_iff (works : ObjName → Bool) (hw : ∀ o, works o = true) (s : ObjState) (h1 : s.has .config = true) (h2 : s.has .inputs = true) :
    (instantiateObjs works "outputs.physics_model.noise".toList s).2 = .ok () ↔ s.has .intensityModel = true := by
  have hf : findCalls "outputs".toList 0 none "outputs.physics_model.noise".toList = ["physics_model".toList] := by decide +kernel
  have ho : objOf "physics_model".toList = some .physicsModel := by decide +kernel
  unfold instantiateObjs
  rw [hf]
  simp only [buildCalls, ho]
  rw [next_isOk]
  cases hi : s.has .intensityModel
  · simp [buildObj, buildPhysics, needData, h1, ObjResult.next, hi]
  · simp [buildObj, buildPhysics, needData, h1, h2, ObjResult.next, hi, construct, hw]

/-- C132: so with configuration, inputs and constructors that work, an expression may still find its object missing. -/
theorem C132_physics_false : ¬ ∀ (works : ObjName → Bool) (s : ObjState) (expression : List Char), (∀ o, works o = true) → s.has .config = true →
    s.has .inputs = true → (instantiateObjs works expression s).2 = .ok () := by
  intro h
  have h1 := h (fun _ => true) exObjects "outputs.physics_model.noise".toList (fun _ => rfl) (by decide) (by decide)
  rw [C132_physics_iff _ (fun _ => rfl) _ (by decide) (by decide)] at h1
  revert h1
  decide

/-- C132: the learning model can never be built, whatever is there; and if everything else can be, the attempt removes the loss from the
configuration. -/
theorem C132_learning_never (works : ObjName → Bool) (calls : List (List Char)) (s : ObjState) (h : "learning_model".toList ∈ calls) :
    (buildCalls works calls s).2 ≠ .ok () := by
  have hl : ∀ s, (buildLearning works s).2 ≠ .ok () := by
    intro s hc
    unfold buildLearning at hc
    rw [next_isOk] at hc
    obtain ⟨_, hc⟩ := hc
    split at hc <;> simp at hc
  have ho : objOf "learning_model".toList = some .learningModel := by decide +kernel
  induction calls generalizing s with
  | nil => simp at h
  | cons n r ih =>
    simp only [buildCalls]
    rcases List.mem_cons.1 h with rfl | h
    · rw [ho]
      simp only
      intro hc
      rw [next_isOk] at hc
      exact hl s hc.1
    · cases hn : objOf n with
      | none => exact ih s h
      | some o =>
        simp only
        intro hc
        rw [next_isOk] at hc
        exact ih _ h hc.2

theorem C132_learning_loss (works : ObjName → Bool) (hw : ∀ o, works o = true) (s : ObjState) (h1 : s.has .config = true) (h2 : s.has .inputs = true)
    (h3 : s.has .intensityModel = true) (h4 : s.loss = true) :
    (buildLearning works s).2 = .error .type ∧ (buildLearning works s).1.loss = false ∧
      (buildLearning works (buildLearning works s).1).2 = .error .key := by
  cases hn : s.has .neuralNetwork <;> cases hp : s.has .physicsModel <;>
    simp [buildLearning, buildNN, buildPhysics, needData, ObjResult.next, construct, ObjState.add, hw, h1, h2, h3, h4, hn, hp]

example : (buildLearning (fun _ => true) (exObjects.add .intensityModel)).2 = .error .type := by decide +kernel

end GeNSIT
