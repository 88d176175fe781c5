import Verif.Physics.Model
import Verif.Sampler.Model
import Mathlib.Algebra.Order.Ring.Rat
import Mathlib.Data.Finset.Dedup
import Mathlib.Data.Finset.Card
import Mathlib.Tactic.Linarith
import Mathlib.Tactic.Tauto
import Mathlib.Tactic.NormNum

/-!
# C159: learned parameters and the order in which they are listed

The learned parameters are given as a list of names (`training.to_learn`) and sampled as a tensor without names.  This file models where the code goes
back from positions to names: `params_to_learn` (`gensit/physics_models/HarrisWilsonModel.py:70-74`), the samplers
(`gensit/learning_models/HarrisWilsonModel_MCMC.py:635-665, 725-765`; `gensit/experiments.py:471-492, 1395-1420, 1629-1656`), the grid search
(`gensit/experiments.py:1242-1290`), training (`gensit/experiments.py:2118-2140`, `HarrisWilsonModel.py:351-371`) and the written data
(`gensit/experiments.py:556-581, 733-739`).
-/

set_option linter.unusedSectionVars false

namespace GeNSIT

/-- What the code raises. -/
inductive NameErr
  | index   -- IndexError
  | key     -- KeyError
  | shape   -- RuntimeError of a broadcast
  | unknown -- "Cannot instantiate Harris Wilson Model."
  | sigma   -- "Cannot learn sigma using existing MCMC schemes"
deriving DecidableEq, Repr

/-- The keys of a dictionary filled in the order of the list: every name once, at its first place (`HarrisWilsonModel.py:72-74`). -/
def dictKeys : List String → List String
  | [] => []
  | a :: r => a :: (dictKeys r).filter (· ≠ a)

/-- `params_to_learn[p]`: a repeated name keeps its last position (`HarrisWilsonModel.py:73-74`). -/
def paramIndex : List String → String → Option ℕ
  | [], _ => none
  | a :: r, p => match paramIndex r p with
    | some i => some (i + 1)
    | none => if a = p then some 0 else none

/-- The checks on the names when model and sampler are built (`HarrisWilsonModel.py:62-68`, `HarrisWilsonModel_MCMC.py:50-52`). -/
def checkNames (names : List String) : Except NameErr Unit :=
  if names.all (· ∈ hwLearnable) then
    if "sigma" ∈ names then .error .sigma else .ok ()
  else .error .unknown

variable {K : Type} [_root_.Field K] [LinearOrder K]

/-- `dict(zip(params_to_learn.keys(), theta))`. -/
def learnedDict (names : List String) (theta : List K) : List (String × K) := (dictKeys names).zip theta

/-- `theta[1] *= hyperparams['bmax']` (`experiments.py:1404, 1634`, `HarrisWilsonModel_MCMC.py:655, 742`). -/
def scaleSecond (hp : List (String × K)) (theta : List K) : Except NameErr (List K) :=
  match theta, hp.lookup "bmax" with
  | _, none => .error .key
  | a :: b :: r, some bmax => .ok (a :: b * bmax :: r)
  | _, some _ => .error .index

/-- The value a named argument of the potential gets: the fixed parameters overwrite what is passed (`HarrisWilsonModel.py:178-192`).  The data and
stored attributes of the intensity model are not parameters and are left out. -/
def potentialArg (dict hp : List (String × K)) (p : String) : Option K :=
  match hp.lookup p with
  | some v => some v
  | none => dict.lookup p

/-- The start of `SIM_MCMC.run` (`experiments.py:1395-1420`): the initial sample and the parameters at which everything is evaluated. -/
def simStart (names : List String) (dflt : String → K) (hp : List (String × K)) : Except NameErr (List K × List (String × K)) :=
  let theta := (dictKeys names).map dflt
  match scaleSecond hp theta with
  | .error e => .error e
  | .ok sc => .ok (theta, learnedDict names sc)

/-- The loop of the random walk (`HarrisWilsonModel_MCMC.py:635-647`); the walk has two entries. -/
def walkLoop (walk : List K) : ℕ → List K → Except NameErr (List K)
  | _, [] => .ok []
  | i, a :: r =>
    match walk[i]? with
    | none => .error .index
    | some s =>
      match walkLoop walk (i + 1) r with
      | .error e => .error e
      | .ok r' => .ok (reflect (a + s) :: r')

/-- The proposal of `theta_gibbs_step` and the parameters at which it is evaluated (`HarrisWilsonModel_MCMC.py:635-668`); `none` in place of the
parameters: rejected because outside of the box.  `u`, `v` are the two entries of the walk. -/
def simPropose (names : List String) (hp : List (String × K)) (theta : List K) (u v : K) :
    Except NameErr (List K × Option (List (String × K))) :=
  match walkLoop [u, v] 0 theta with
  | .error e => .error e
  | .ok new =>
    if new.any (fun c => decide (c < 0)) || new.any (fun c => decide (2 ≤ c)) then .ok (new, none)
    else match scaleSecond hp new with
      | .error e => .error e
      | .ok sc => .ok (new, some (learnedDict names sc))

/-- The start of `JointTableSIM_MCMC.run` (`experiments.py:1629-1660`): the sample, `alpha` and `beta` of the table likelihood (taken by position), and the
parameters of the potential. -/
def jointStart (names : List String) (dflt : String → K) (hp : List (String × K)) : Except NameErr (List K × (K × K) × List (String × K)) :=
  let theta := (dictKeys names).map dflt
  match scaleSecond hp theta with
  | .error e => .error e
  | .ok (a :: b :: r) => .ok (theta, (a, b), learnedDict names (a :: b :: r))
  | .ok _ => .error .index

/-- The proposal of `theta_given_table_gibbs_step` (`HarrisWilsonModel_MCMC.py:725-775`): `alpha` and `beta` of the likelihood are taken by name.  A
tensor of another length than two does not broadcast with the walk, or (length one) becomes longer than the names; these lengths are stopped at the start
of the run or here. -/
def jointPropose (names : List String) (hp : List (String × K)) (theta : List K) (u v : K) :
    Except NameErr (List K × Option ((K × K) × List (String × K))) :=
  match theta with
  | [a, b] =>
    let new := [reflect (a + u), reflect (b + v)]
    if new.any (fun c => decide (c < 0)) || new.any (fun c => decide (2 ≤ c)) then .ok (new, none)
    else match scaleSecond hp new with
      | .error e => .error e
      | .ok sc =>
        let d := learnedDict names sc
        match d.lookup "alpha", d.lookup "beta" with
        | some al, some be => .ok (new, some ((al, be), d))
        | _, _ => .error .key
  | _ => .error .shape

/-- A point of the grid search (`experiments.py:1242-1262`, `1013-1026`): the first two entries of the sample are overwritten. -/
def gridPoint (names : List String) (hp : List (String × K)) (theta : List K) (al be : K) : Except NameErr (List (String × K)) :=
  match theta, hp.lookup "bmax" with
  | _ :: _ :: r, some bmax => .ok (learnedDict names (al :: be * bmax :: r))
  | _, none => .error .key
  | _, some _ => .error .index

/-- What the grid search reports as best `alpha` and scaled `beta` when this point wins (`experiments.py:1271, 1284-1290`). -/
def gridReport (d : List (String × K)) : Except NameErr (K × K) :=
  match d.lookup "alpha", d.lookup "beta" with
  | some al, some be => .ok (al, be)
  | _, _ => .error .key

/-- The parameters of the intensity in a training step (`experiments.py:2126-2133`): passed by name; a parameter that is not learned is the fixed one. -/
def trainIntensityArg (names : List String) (hp : List (String × K)) (theta : List K) (p : String) : Option K :=
  match (learnedDict names theta).lookup p with
  | some v => some v
  | none => hp.lookup p

/-- The parameters of the SDE step (`HarrisWilsonModel.py:351-371`); `none` = exception. -/
def runSingleArg (names : List String) (hp : List (String × K)) (theta : List K) (p : String) : Option K :=
  if p ∈ dictKeys names then
    match paramIndex names p with
    | some i => theta[i]?
    | none => none
  else hp.lookup p

/-- `write_data` for theta (`experiments.py:733-739`): data set number `idx` gets entry `idx`; `none` = exception. -/
def writeTheta : List (String × List K) → List K → Option (List (String × List K))
  | [], _ => some []
  | _ :: _, [] => none
  | d :: ds, v :: vs => (writeTheta ds vs).map ((d.1, d.2 ++ [v]) :: ·)

/-- Writing a history of samples. -/
def writeThetas (dsets : List (String × List K)) : List (List K) → Option (List (String × List K))
  | [] => some dsets
  | th :: ths => match writeTheta dsets th with
    | some d => writeThetas d ths
    | none => none

/-! ### Specification -/

/-- The sample value of the parameter called `p`, when `names` are listed in this order and `theta` is the sample. -/
def Spec.sampled (names : List String) (theta : List K) (p : String) : Option K := (names.zip theta).lookup p

/-- What the model should use for `p`: its sample value if learned, multiplied by `bmax` if it is `beta`; the fixed value otherwise. -/
def Spec.argument (names : List String) (theta : List K) (hp : List (String × K)) (bmax : K) (p : String) : Option K :=
  if p ∈ names then (Spec.sampled names theta p).map (fun v => if p = "beta" then v * bmax else v) else hp.lookup p

/-! ### Lemmas -/

theorem dictKeys_of_nodup : ∀ (names : List String), names.Nodup → dictKeys names = names := by
  intro names
  induction names with
  | nil => intro _; rfl
  | cons a r ih =>
    intro h
    rw [List.nodup_cons] at h
    rw [dictKeys, ih h.2]
    congr 1
    rw [List.filter_eq_self]
    intro b hb
    have : b ≠ a := fun e => h.1 (e ▸ hb)
    simpa using this

theorem mem_dictKeys (names : List String) (p : String) : p ∈ dictKeys names ↔ p ∈ names := by
  induction names with
  | nil => rfl
  | cons a r ih =>
    rw [dictKeys, List.mem_cons, List.mem_cons, List.mem_filter, ih]
    by_cases h : p = a <;> simp [h]

theorem nodup_dictKeys (names : List String) : (dictKeys names).Nodup := by
  induction names with
  | nil => exact List.nodup_nil
  | cons a r ih =>
    rw [dictKeys, List.nodup_cons]
    exact ⟨by simp, ih.filter _⟩

theorem paramIndex_none {names : List String} {p : String} (h : p ∉ names) : paramIndex names p = none := by
  induction names with
  | nil => rfl
  | cons a r ih =>
    rw [List.mem_cons, not_or] at h
    rw [paramIndex, ih h.2]
    simp [Ne.symm h.1]

theorem lookup_zip_none {names : List String} {theta : List K} {p : String} (h : p ∉ names) : (names.zip theta).lookup p = none := by
  induction names generalizing theta with
  | nil => rfl
  | cons a r ih =>
    rw [List.mem_cons, not_or] at h
    cases theta with
    | nil => rfl
    | cons v vs =>
      rw [List.zip_cons_cons, List.lookup_cons]
      have : (p == a) = false := by simpa using h.1
      rw [this]
      exact ih h.2

theorem index_sampled {names : List String} (hn : names.Nodup) {theta : List K} {p : String} (h : p ∈ names) :
    (match paramIndex names p with
      | some i => theta[i]?
      | none => none) = Spec.sampled names theta p := by
  unfold Spec.sampled
  induction names generalizing theta with
  | nil => simp at h
  | cons a r ih =>
    rw [List.nodup_cons] at hn
    by_cases hpa : p = a
    · subst hpa
      rw [paramIndex, paramIndex_none hn.1]
      cases theta with
      | nil => simp
      | cons v vs => simp [List.lookup_cons]
    · have hr : p ∈ r := by
        rcases List.mem_cons.1 h with h | h
        · exact absurd h hpa
        · exact h
      have hb : (p == a) = false := by simpa using hpa
      cases theta with
      | nil =>
        rw [List.zip_nil_right]
        cases paramIndex (a :: r) p <;> simp
      | cons v vs =>
        have := ih hn.2 (theta := vs) hr
        rw [List.zip_cons_cons, List.lookup_cons, hb, ← this, paramIndex]
        cases hi : paramIndex r p with
        | none => simp [Ne.symm hpa]
        | some i => simp

theorem scaleSecond_ok {hp : List (String × K)} {theta sc : List K} (h : scaleSecond hp theta = .ok sc) :
    ∃ a b r bmax, theta = a :: b :: r ∧ hp.lookup "bmax" = some bmax ∧ sc = a :: b * bmax :: r := by
  unfold scaleSecond at h
  cases hb : hp.lookup "bmax" with
  | none => simp [hb] at h
  | some bmax =>
    match theta, h with
    | [], h => simp [hb] at h
    | [a], h => simp [hb] at h
    | a :: b :: r, h =>
      simp [hb] at h
      exact ⟨a, b, r, bmax, rfl, rfl, h.symm⟩

theorem scaleSecond_two (hp : List (String × K)) (a b bmax : K) (r : List K) (hb : hp.lookup "bmax" = some bmax) :
    scaleSecond hp (a :: b :: r) = .ok (a :: b * bmax :: r) := by
  simp [scaleSecond, hb]

theorem length_walkLoop {walk : List K} : ∀ {theta : List K} {i : ℕ} {new : List K}, walkLoop walk i theta = .ok new →
    new.length = theta.length ∧ (theta ≠ [] → theta.length + i ≤ walk.length) := by
  intro theta
  induction theta with
  | nil =>
    intro i new h
    simp only [walkLoop, Except.ok.injEq] at h
    exact ⟨by rw [← h], fun h => absurd rfl h⟩
  | cons a r ih =>
    intro i new h
    rw [walkLoop] at h
    cases hw : walk[i]? with
    | none => simp [hw] at h
    | some s =>
      cases hr : walkLoop walk (i + 1) r with
      | error e => simp [hw, hr] at h
      | ok r' =>
        simp only [hw, hr, Except.ok.injEq] at h
        obtain ⟨h1, h2⟩ := ih hr
        refine ⟨by rw [← h]; simp [h1], fun _ => ?_⟩
        have hi : i < walk.length := by
          rcases Nat.lt_or_ge i walk.length with h | h
          · exact h
          · rw [List.getElem?_eq_none h] at hw; simp at hw
        cases r with
        | nil => simp; omega
        | cons b r2 =>
          have := h2 (by simp)
          simp only [List.length_cons] at this ⊢
          omega

theorem simPropose_two (names : List String) (hp : List (String × K)) (a b u v bmax : K) (hb : hp.lookup "bmax" = some bmax) :
    simPropose names hp [a, b] u v = .ok ([reflect (a + u), reflect (b + v)],
      if outsideBox ![reflect (a + u), reflect (b + v)] then none else some (learnedDict names [reflect (a + u), reflect (b + v) * bmax])) := by
  have ho : (([reflect (a + u), reflect (b + v)].any (fun c => decide (c < 0)) || [reflect (a + u), reflect (b + v)].any (fun c => decide (2 ≤ c))) = true) ↔
      outsideBox ![reflect (a + u), reflect (b + v)] := by
    unfold outsideBox
    simp
  unfold simPropose
  simp only [walkLoop, List.getElem?_cons_zero, List.getElem?_cons_succ]
  by_cases h : outsideBox ![reflect (a + u), reflect (b + v)]
  · rw [if_pos (ho.2 h), if_pos h]
  · rw [if_neg (fun h' => h (ho.1 h')), if_neg h, scaleSecond_two hp _ _ bmax [] hb]

/-! ### Theorems -/

theorem checkNames_ok (names : List String) :
    checkNames names = .ok () ↔ ∀ p ∈ names, p ∈ ["alpha", "beta", "kappa", "delta", "epsilon", "bmax"] := by
  unfold checkNames hwLearnable
  by_cases h : names.all (· ∈ ["alpha", "beta", "kappa", "sigma", "delta", "epsilon", "bmax"])
  · rw [if_pos h]
    rw [List.all_eq_true] at h
    by_cases hs : "sigma" ∈ names
    · rw [if_pos hs]
      simp only [reduceCtorEq, false_iff, not_forall]
      exact ⟨"sigma", hs, by decide⟩
    · rw [if_neg hs]
      simp only [true_iff]
      intro p hp
      have := h p hp
      have hps : p ≠ "sigma" := fun e => hs (e ▸ hp)
      simp only [List.mem_cons, List.not_mem_nil, or_false, decide_eq_true_eq] at this ⊢
      tauto
  · rw [if_neg h]
    simp only [reduceCtorEq, false_iff]
    intro hall
    apply h
    rw [List.all_eq_true]
    intro p hp
    have := hall p hp
    simp only [List.mem_cons, List.not_mem_nil, or_false, decide_eq_true_eq] at this ⊢
    tauto

/-- **C159 (number of parameters).** Model and sampler can be built, the run starts and a step of the parameters succeeds exactly when the names are
learnable ones without `sigma`, exactly two different names are listed and `bmax` has a fixed value. -/
theorem C159_two_parameters [IsStrictOrderedRing K] (names : List String) (dflt : String → K) (hp : List (String × K)) (u v : K) :
    (checkNames names = .ok () ∧ ∃ s, simStart names dflt hp = .ok s ∧ ∃ r, simPropose names hp s.1 u v = .ok r) ↔
      (∀ p ∈ names, p ∈ ["alpha", "beta", "kappa", "delta", "epsilon", "bmax"]) ∧
        names.toFinset.card = 2 ∧ ∃ bmax, hp.lookup "bmax" = some bmax := by
  rw [checkNames_ok]
  refine and_congr_right fun _ => ?_
  have hcard : names.toFinset.card = (dictKeys names).length := by
    rw [← List.toFinset_card_of_nodup (nodup_dictKeys names)]
    congr 1
    ext p
    simp [mem_dictKeys]
  rw [hcard]
  constructor
  · rintro ⟨s, hs, r, hr⟩
    unfold simStart at hs
    cases hsc : scaleSecond hp ((dictKeys names).map dflt) with
    | error e => simp [hsc] at hs
    | ok sc =>
      simp only [hsc, Except.ok.injEq] at hs
      obtain ⟨a, b, r', bmax, he, hb, _⟩ := scaleSecond_ok hsc
      refine ⟨?_, bmax, hb⟩
      have hlen : (dictKeys names).length = r'.length + 2 := by
        have := congrArg List.length he
        simpa using this
      rw [← hs] at hr
      unfold simPropose at hr
      simp only at hr
      cases hw : walkLoop [u, v] 0 ((dictKeys names).map dflt) with
      | error e => simp [hw] at hr
      | ok new =>
        have := (length_walkLoop hw).2 (by rw [he]; simp)
        simp only [List.length_map, List.length_cons, List.length_nil] at this
        omega
  · rintro ⟨h2, bmax, hb⟩
    match hk : dictKeys names, h2 with
    | [n0, n1], _ =>
      have h1 : simStart names dflt hp = .ok ([dflt n0, dflt n1], learnedDict names [dflt n0, dflt n1 * bmax]) := by
        unfold simStart
        simp only [hk, List.map_cons, List.map_nil]
        rw [scaleSecond_two hp _ _ bmax [] hb]
      exact ⟨_, h1, _, simPropose_two names hp _ _ u v bmax hb⟩

example : checkNames ["kappa", "beta", "kappa"] = .ok () ∧ dictKeys ["kappa", "beta", "kappa"] = ["kappa", "beta"] ∧
    (["kappa", "beta", "kappa"] : List String).toFinset.card = 2 ∧ List.lookup "bmax" [("delta", (1 : ℚ)), ("bmax", 10)] = some 10 := by
  decide +kernel

example : simStart ["beta"] (fun _ => (1 / 2 : ℚ)) [("bmax", 10)] = .error .index ∧
    simPropose ["alpha", "beta", "kappa"] [("bmax", 10)] [(1 : ℚ), 1, 1] 0 0 = .error .index := ⟨rfl, rfl⟩

theorem argument_two {n0 n1 : String} (hne : n0 ≠ n1) (a b bmax : K) (hp : List (String × K)) (p : String) :
    Spec.argument [n0, n1] [a, b] hp bmax p =
      if p = n0 then some (if p = "beta" then a * bmax else a) else if p = n1 then some (if p = "beta" then b * bmax else b) else hp.lookup p := by
  unfold Spec.argument Spec.sampled
  by_cases h0 : p = n0
  · subst h0; simp [List.lookup_cons]
  · by_cases h1 : p = n1
    · subst h1
      have : (p == n0) = false := by simpa using h0
      simp [List.lookup_cons, this, h0]
    · simp [h0, h1]

theorem potentialArg_two {n0 n1 : String} (hne : n0 ≠ n1) (hp : List (String × K)) (h0 : hp.lookup n0 = none) (h1 : hp.lookup n1 = none) (a b : K)
    (p : String) :
    potentialArg (learnedDict [n0, n1] [a, b]) hp p = if p = n0 then some a else if p = n1 then some b else hp.lookup p := by
  have hk : dictKeys [n0, n1] = [n0, n1] := dictKeys_of_nodup _ (by simp [hne])
  unfold potentialArg learnedDict
  rw [hk]
  by_cases e0 : p = n0
  · subst e0; simp [h0, List.lookup_cons]
  · by_cases e1 : p = n1
    · subst e1
      have : (p == n0) = false := by simpa using e0
      simp [h1, List.lookup_cons, this, e0]
    · have b0 : (p == n0) = false := by simpa using e0
      have b1 : (p == n1) = false := by simpa using e1
      cases hp.lookup p <;> simp [List.lookup_cons, b0, b1, e0, e1]

/-- **C159 (the samplers, exactly).** Two learned names `n0`, `n1`, in this order.  The potential sees, at every proposal inside the box, every learned
parameter under its own name and in its own units, and every other one at its fixed value, if and only if the name in second place is `beta` (or nothing is scaled). -/
theorem C159_sampler_iff [IsStrictOrderedRing K] {n0 n1 : String} (hne : n0 ≠ n1) (hp : List (String × K))
    (h0 : hp.lookup n0 = none) (h1 : hp.lookup n1 = none) (bmax : K) (hb : hp.lookup "bmax" = some bmax) :
    (∀ (a b u v : K) (new : List K) (d : List (String × K)), simPropose [n0, n1] hp [a, b] u v = .ok (new, some d) →
        ∀ p, potentialArg d hp p = Spec.argument [n0, n1] new hp bmax p) ↔
      n1 = "beta" ∨ bmax = 1 := by
  constructor
  · intro h
    by_contra hn
    rw [not_or] at hn
    have h12 : ¬ outsideBox ![reflect (1 + 0), reflect ((1 : K) + 0)] := by
      unfold outsideBox reflect
      have e1 : ¬ (1 : K) < 0 := not_lt.2 zero_le_one
      have e2 : ¬ (2 : K) < 1 := not_lt.2 one_le_two
      simp [e1, e2]
    have e := simPropose_two [n0, n1] hp 1 1 0 0 bmax hb
    rw [if_neg h12] at e
    have hr : reflect ((1 : K) + 0) = 1 := by
      unfold reflect
      have e1 : ¬ (1 : K) < 0 := not_lt.2 zero_le_one
      have e2 : ¬ (2 : K) < 1 := not_lt.2 one_le_two
      simp [e1, e2]
    have := h 1 1 0 0 _ _ e n1
    rw [potentialArg_two hne hp h0 h1, argument_two hne, hr] at this
    simp [Ne.symm hne, hn.1, hn.2] at this
  · intro hc a b u v new d h p
    rw [simPropose_two _ _ _ _ _ _ bmax hb] at h
    split at h
    · simp at h
    · simp only [Except.ok.injEq, Prod.mk.injEq, Option.some.injEq] at h
      obtain ⟨rfl, rfl⟩ := h
      rw [potentialArg_two hne hp h0 h1, argument_two hne]
      rcases hc with rfl | rfl
      · by_cases e0 : p = n0
        · subst e0
          simp [hne]
        · by_cases e1 : p = "beta"
          · subst e1
            simp [e0]
          · simp [e0, e1]
      · simp

/-- **C159 (fixed parameters).** A parameter that is also among the fixed ones is evaluated at its fixed value, whatever value is learned for it; one that is neither
fixed nor learned gets no value. -/
theorem C159_fixed_wins (names : List String) (theta : List K) (hp : List (String × K)) (p : String) :
    (∀ v, hp.lookup p = some v → potentialArg (learnedDict names theta) hp p = some v) ∧
    (hp.lookup p = none → p ∉ names → potentialArg (learnedDict names theta) hp p = none) := by
  refine ⟨fun v h => by simp only [potentialArg, h], fun h hn => ?_⟩
  simp only [potentialArg, h, learnedDict]
  rw [List.lookup_eq_none_iff]
  intro q hq
  have := List.of_mem_zip hq
  simp only [bne_iff_ne, ne_eq, beq_eq_false_iff_ne]
  rintro rfl
  exact hn ((mem_dictKeys _ _).1 this.1)

example : potentialArg (learnedDict ["alpha", "beta"] [(1 : ℚ), 2]) [("beta", 5)] "beta" = some 5 := by decide +kernel

/-- The order of every shipped configuration: `alpha` first, `beta` second. -/
theorem C159_alpha_beta_partial [IsStrictOrderedRing K] (hp : List (String × K)) (h0 : hp.lookup "alpha" = none) (h1 : hp.lookup "beta" = none)
    (bmax : K) (hb : hp.lookup "bmax" = some bmax) (a b u v : K) (new : List K) (d : List (String × K))
    (h : simPropose ["alpha", "beta"] hp [a, b] u v = .ok (new, some d)) (p : String) :
    potentialArg d hp p = Spec.argument ["alpha", "beta"] new hp bmax p :=
  (C159_sampler_iff (by decide) hp h0 h1 bmax hb).2 (.inl rfl) a b u v new d h p

example : simPropose ["alpha", "beta"] [("bmax", 10), ("kappa", 2)] [(1 : ℚ), 3 / 2] (1 / 2) 1 =
    .ok ([3 / 2, 3 / 2], some [("alpha", 3 / 2), ("beta", 15)]) := by
  simp only [simPropose, walkLoop, scaleSecond, learnedDict, reflect, dictKeys]
  norm_num
  decide +kernel

/-- **C159 is false of the samplers**: listed as `beta`, `alpha` the sampler evaluates the potential at `alpha` times `bmax`. -/
theorem C159_false : ¬ ∀ (names : List String) (hp : List (String × ℚ)) (theta : List ℚ) (u v : ℚ) (new : List ℚ) (d : List (String × ℚ)) (bmax : ℚ),
    names.Perm ["alpha", "beta"] → hp.lookup "alpha" = none → hp.lookup "beta" = none → hp.lookup "bmax" = some bmax →
    theta.length = 2 → simPropose names hp theta u v = .ok (new, some d) → ∀ p, potentialArg d hp p = Spec.argument names new hp bmax p := by
  intro h
  have h2 := (C159_sampler_iff (K := ℚ) (n0 := "beta") (n1 := "alpha") (by decide) [("bmax", 10)] (by decide) (by decide) 10 (by decide +kernel)).1
    (fun a b u v new d hd p => h ["beta", "alpha"] _ [a, b] u v new d 10 (List.Perm.swap _ _ _) (by decide) (by decide) (by decide +kernel) rfl hd p)
  rcases h2 with h2 | h2
  · simp at h2
  · norm_num at h2

/-- **C159 (joint sampler, before the loop).** The table likelihood takes the first two entries as `alpha` and `beta`; listed as `beta`, `alpha`
(with different starting values, or any scaling) it is evaluated at other parameters than the potential. -/
theorem C159_joint_start (names : List String) (hn : names.Nodup) (dflt : String → K) (hp : List (String × K)) (bmax : K)
    (hb : hp.lookup "bmax" = some bmax) (s : List K × (K × K) × List (String × K)) (h : jointStart names dflt hp = .ok s) :
    ∃ n0 n1 rest, names = n0 :: n1 :: rest ∧ s.2.1 = (dflt n0, dflt n1 * bmax) ∧ s.2.2.lookup n0 = some (dflt n0) ∧
      s.2.2.lookup n1 = some (dflt n1 * bmax) := by
  unfold jointStart at h
  rw [dictKeys_of_nodup names hn] at h
  match names, hn, h with
  | [], _, h => simp [scaleSecond, hb] at h
  | [n], _, h => simp [scaleSecond, hb] at h
  | n0 :: n1 :: rest, hn, h =>
    simp only [List.map_cons, scaleSecond_two hp _ _ bmax _ hb, Except.ok.injEq] at h
    refine ⟨n0, n1, rest, rfl, by rw [← h], ?_⟩
    have hne : n0 ≠ n1 := fun e => by simp [e] at hn
    have hk := dictKeys_of_nodup _ hn
    have hb1 : (n1 == n0) = false := by simpa using Ne.symm hne
    rw [← h]
    simp only [learnedDict, hk, List.zip_cons_cons]
    exact ⟨by simp [List.lookup_cons], by simp [List.lookup_cons, hb1]⟩

theorem C159_joint_start_false : ∃ (hp : List (String × ℚ)) (dflt : String → ℚ) (s : List ℚ × (ℚ × ℚ) × List (String × ℚ)),
    jointStart ["beta", "alpha"] dflt hp = .ok s ∧ dflt "alpha" = dflt "beta" ∧ s.2.2.lookup "alpha" ≠ some s.2.1.1 ∧ s.2.2.lookup "beta" ≠ some s.2.1.2 :=
  ⟨[("bmax", 10)], fun _ => 1 / 2, ([1 / 2, 1 / 2], (1 / 2, 1 / 2 * 10), [("beta", 1 / 2), ("alpha", 1 / 2 * 10)]), by
    refine ⟨?_, rfl, ?_, ?_⟩
    · rfl
    · rw [show List.lookup "alpha" [("beta", (1 / 2 : ℚ)), ("alpha", 1 / 2 * 10)] = some (1 / 2 * 10) from rfl]
      norm_num
    · rw [show List.lookup "beta" [("beta", (1 / 2 : ℚ)), ("alpha", 1 / 2 * 10)] = some (1 / 2) from rfl]
      norm_num⟩

/-- **C159 (joint sampler, names).** A proposal inside the box that does not raise has `alpha` and `beta` among the two names, and the likelihood is
evaluated at the parameters of the potential. -/
theorem C159_joint_names {n0 n1 : String} (hne : n0 ≠ n1) (hp : List (String × K)) (theta : List K) (u v : K) (new : List K) (al be : K)
    (d : List (String × K)) (h : jointPropose [n0, n1] hp theta u v = .ok (new, some ((al, be), d))) :
    [n0, n1].Perm ["alpha", "beta"] ∧ d.lookup "alpha" = some al ∧ d.lookup "beta" = some be := by
  unfold jointPropose at h
  match theta, h with
  | [a, b], h =>
    simp only at h
    split at h
    · simp at h
    · split at h
      · simp at h
      · rename_i sc hsc
        split at h
        · rename_i al' be' h1 h2
          simp only [Except.ok.injEq, Prod.mk.injEq, Option.some.injEq] at h
          obtain ⟨-, ⟨rfl, rfl⟩, rfl⟩ := h
          refine ⟨?_, h1, h2⟩
          have m1 : "alpha" ∈ [n0, n1] := by
            by_contra hc
            rw [learnedDict, dictKeys_of_nodup _ (by simp [hne]), lookup_zip_none hc] at h1
            simp at h1
          have m2 : "beta" ∈ [n0, n1] := by
            by_contra hc
            rw [learnedDict, dictKeys_of_nodup _ (by simp [hne]), lookup_zip_none hc] at h2
            simp at h2
          simp only [List.mem_cons, List.not_mem_nil, or_false] at m1 m2
          rcases m1 with rfl | rfl
          · rcases m2 with m2 | rfl
            · simp at m2
            · exact List.Perm.refl _
          · rcases m2 with rfl | m2
            · exact List.Perm.swap _ _ _
            · simp at m2
        · simp at h
  | [], h => simp at h
  | [_], h => simp at h
  | _ :: _ :: _ :: _, h => simp at h

example : jointPropose ["beta", "alpha"] [("bmax", 10)] [(1 : ℚ), 1] 0 0 = .ok ([1, 1], some ((10, 1), [("beta", 1), ("alpha", 10)])) ∧
    jointPropose ["kappa", "beta"] [("bmax", 10)] [(1 : ℚ), 1] 0 0 = .error .key := by
  constructor
  · simp [jointPropose, reflect, scaleSecond, learnedDict, dictKeys, List.lookup]
    norm_num
  · simp [jointPropose, reflect, scaleSecond, learnedDict, dictKeys, List.lookup]
    norm_num

/-- **C159 (grid search, exactly).** With the names listed once each, the search evaluates the point `(al, be)` at `alpha = al` and `beta = be * bmax`, for
every point of the grid, if and only if the list starts with `alpha`, `beta`. -/
theorem C159_grid_iff (names : List String) (hn : names.Nodup) (hp : List (String × K)) (bmax : K) (hb : hp.lookup "bmax" = some bmax) (hb0 : bmax ≠ 0)
    (theta : List K) (hl : theta.length = names.length) (h2 : 2 ≤ names.length) :
    (∀ al be, ∃ d, gridPoint names hp theta al be = .ok d ∧ d.lookup "alpha" = some al ∧ d.lookup "beta" = some (be * bmax)) ↔
      ["alpha", "beta"] <+: names := by
  match names, theta, hn, hl, h2 with
  | n0 :: n1 :: rest, t0 :: t1 :: ts, hn, hl, h2 =>
    have hk := dictKeys_of_nodup _ hn
    have hg : ∀ al be, gridPoint (n0 :: n1 :: rest) hp (t0 :: t1 :: ts) al be = .ok ((n0, al) :: (n1, be * bmax) :: rest.zip ts) := by
      intro al be
      unfold gridPoint
      simp only [hb, learnedDict, hk, List.zip_cons_cons]
    simp only [hg, Except.ok.injEq, exists_eq_left']
    constructor
    · intro h
      -- two points of the grid that differ in both coordinates
      have ha : n0 = "alpha" := by
        by_contra hc
        have b0 : ("alpha" == n0) = false := by simpa using Ne.symm hc
        have l : ∀ al be, List.lookup "alpha" ((n0, al) :: (n1, be * bmax) :: rest.zip ts) =
            if "alpha" = n1 then some (be * bmax) else (rest.zip ts).lookup "alpha" := by
          intro al be
          by_cases e : "alpha" = n1
          · subst e; simp [List.lookup_cons, b0]
          · have b1 : ("alpha" == n1) = false := by simpa using e
            simp [List.lookup_cons, b0, b1, e]
        have q0 := (h 0 0).1
        have q1 := (h 1 0).1
        rw [l] at q0 q1
        rw [q0] at q1
        simp at q1
      have hbt : n1 = "beta" := by
        by_contra hc
        have b1 : ("beta" == n1) = false := by simpa using Ne.symm hc
        have l : ∀ al be, List.lookup "beta" ((n0, al) :: (n1, be * bmax) :: rest.zip ts) =
            if "beta" = n0 then some al else (rest.zip ts).lookup "beta" := by
          intro al be
          by_cases e : "beta" = n0
          · subst e; simp [List.lookup_cons]
          · have b0 : ("beta" == n0) = false := by simpa using e
            simp [List.lookup_cons, b0, b1, e]
        have q0 := (h 0 0).2
        have q1 := (h 0 1).2
        rw [l] at q0 q1
        rw [q0] at q1
        simp at q1
        exact hb0 q1.symm
      subst ha hbt
      exact ⟨rest, rfl⟩
    · rintro ⟨r, hr⟩ al be
      simp only [List.cons_append, List.nil_append, List.cons.injEq] at hr
      obtain ⟨rfl, rfl, -⟩ := hr
      exact ⟨by simp [List.lookup_cons], by simp [List.lookup_cons]⟩

example : gridPoint ["alpha", "beta", "kappa"] [("bmax", 10)] [(1 : ℚ), 1, 7] 2 3 = .ok [("alpha", 2), ("beta", 3 * 10), ("kappa", 7)] := rfl

/-- **C159 (grid search, other order).** Listed as `beta`, `alpha`, a winning point `(al, be)` is reported as `alpha = be * bmax` and scaled `beta = al`. -/
theorem C159_grid_swapped (hp : List (String × K)) (bmax : K) (hb : hp.lookup "bmax" = some bmax) (theta : List K) (h2 : 2 ≤ theta.length) (al be : K) :
    ∃ d, gridPoint ["beta", "alpha"] hp theta al be = .ok d ∧ gridReport d = .ok (be * bmax, al) := by
  match theta, h2 with
  | t0 :: t1 :: ts, _ =>
    refine ⟨[("beta", al), ("alpha", be * bmax)], ?_, ?_⟩
    · unfold gridPoint
      simp only [hb, learnedDict, dictKeys_of_nodup ["beta", "alpha"] (by decide), List.zip_cons_cons, List.zip_nil_left]
    · rfl

/-- **C159 (training).** In a training step every learned parameter is used under its own name, for every list of different names: in the intensity and in
the SDE step. -/
theorem C159_training (names : List String) (hn : names.Nodup) (hp : List (String × K)) (hdis : ∀ p ∈ names, hp.lookup p = none) (theta : List K)
    (p : String) :
    trainIntensityArg names hp theta p = Spec.argument names theta hp 1 p ∧ runSingleArg names hp theta p = Spec.argument names theta hp 1 p := by
  have h1 : Spec.argument names theta hp 1 p = if p ∈ names then Spec.sampled names theta p else hp.lookup p := by
    unfold Spec.argument
    simp
  rw [h1]
  unfold trainIntensityArg runSingleArg learnedDict
  rw [dictKeys_of_nodup names hn]
  by_cases hp' : p ∈ names
  · simp only [hp', if_true]
    refine ⟨?_, index_sampled hn hp'⟩
    unfold Spec.sampled
    cases (names.zip theta).lookup p with
    | none => exact hdis p hp'
    | some v => rfl
  · simp only [hp', if_false, lookup_zip_none hp', and_self]

example : runSingleArg ["beta", "kappa", "alpha"] [("delta", (5 : ℚ))] [1, 2, 3] "kappa" = some 2 ∧
    trainIntensityArg ["beta", "kappa", "alpha"] [("delta", (5 : ℚ))] [1, 2, 3] "alpha" = some 3 := by
  constructor <;> rfl

theorem writeTheta_spec (names : List String) (hist : String → List K) (hn : names.Nodup) (theta : List K) (hl : theta.length = names.length) :
    writeTheta (names.map fun n => (n, hist n)) theta = some (names.map fun n => (n, hist n ++ (Spec.sampled names theta n).toList)) := by
  unfold Spec.sampled
  induction names generalizing theta with
  | nil => rfl
  | cons a r ih =>
    match theta, hl with
    | v :: vs, hl =>
      rw [List.nodup_cons] at hn
      have hl' : vs.length = r.length := by simpa using hl
      simp only [List.map_cons, writeTheta, ih hn.2 vs hl', Option.map_some, List.zip_cons_cons, Option.some.injEq, List.cons.injEq]
      refine ⟨by simp [List.lookup_cons], ?_⟩
      apply List.map_congr_left
      intro n hnr
      have : (n == a) = false := by
        have : n ≠ a := fun e => hn.1 (e ▸ hnr)
        simpa using this
      rw [List.lookup_cons, this]

/-- **C159 (written data).** For every history of samples, the data set called `p` holds the values of the parameter `p`, in order, whatever the order of the
names. -/
theorem C159_written (names : List String) (hn : names.Nodup) (hist : List (List K)) (hl : ∀ th ∈ hist, th.length = names.length) :
    writeThetas (names.map fun n => (n, [])) hist = some (names.map fun n => (n, hist.filterMap fun th => Spec.sampled names th n)) := by
  suffices H : ∀ pre : List (List K), writeThetas (names.map fun n => (n, pre.filterMap fun th => Spec.sampled names th n)) hist =
      some (names.map fun n => (n, (pre ++ hist).filterMap fun th => Spec.sampled names th n)) from H []
  induction hist with
  | nil => intro pre; simp [writeThetas]
  | cons th ths ih =>
    intro pre
    rw [writeThetas, writeTheta_spec names (fun n => pre.filterMap fun th => Spec.sampled names th n) hn th (hl th (by simp))]
    have := ih (fun t ht => hl t (by simp [ht])) (pre ++ [th])
    simp only [List.append_assoc, List.singleton_append] at this
    rw [← this]
    simp only [List.filterMap_append, List.filterMap_cons, List.filterMap_nil]
    have e : (names.map fun n => (n, (pre.filterMap fun th => Spec.sampled names th n) ++ (Spec.sampled names th n).toList)) =
        names.map fun n => (n, (pre.filterMap fun th => Spec.sampled names th n) ++ match Spec.sampled names th n with
          | none => []
          | some b => [b]) := by
      apply List.map_congr_left
      intro n _
      cases Spec.sampled names th n <;> rfl
    rw [e]
    rfl

example : writeThetas [("beta", []), ("alpha", [])] [[(1 : ℚ), 2], [3, 4]] = some [("beta", [1, 3]), ("alpha", [2, 4])] := rfl

end GeNSIT
