import Verif.NN.Model
import Mathlib.Data.List.Nodup
import Mathlib.Tactic.NormNum
import Mathlib.Tactic.Linarith

/-!
# C61, C85, C86: network set-up and training
-/

set_option linter.unusedSimpArgs false

namespace GeNSIT

namespace Spec

/-- The key names layer `i` of `n`, counting from the front or, if negative, from the back. -/
def NamesLayer (n i : Nat) (k : LayerKey) : Prop := k = .int i ∨ k = .int ((i : Int) - n)

instance (n i : Nat) (k : LayerKey) : Decidable (NamesLayer n i k) := by
  unfold NamesLayer; infer_instance

/-- The value layer `i` of `n` should have: that of the last entry that names it, or else the default. -/
def layerValue {α : Type} (n : Nat) (dflt : α) (spec : List (LayerKey × α)) (i : Nat) : α :=
  match spec.reverse.find? fun kv => decide (NamesLayer n i kv.1) with
  | some kv => kv.2
  | none => dflt

/-- A key that is not an integer in `[-n, n)`. -/
def BadKey (n : Nat) (k : LayerKey) : Prop :=
  (∃ s, k = .str s) ∨ ∃ i : Int, k = .int i ∧ (i < -(n : Int) ∨ (n : Int) ≤ i)

end Spec

/-! ## Lemmas -/

theorem pySetIdx_none {α : Type} (l : List α) (i : Int) (v : α) :
    pySetIdx l i v = none ↔ i < -(l.length : Int) ∨ (l.length : Int) ≤ i := by
  unfold pySetIdx
  split
  · simp only [reduceCtorEq, false_iff]; omega
  · split
    · simp only [reduceCtorEq, false_iff]; omega
    · simp only [true_iff]; omega

theorem pySetIdx_some {α : Type} (l l' : List α) (i : Int) (v : α) (h : pySetIdx l i v = some l') :
    l'.length = l.length ∧ ∀ j, j < l.length →
      l'[j]? = if Spec.NamesLayer l.length j (.int i) then some v else l[j]? := by
  unfold pySetIdx at h
  have key : ∀ a : Nat, a < l.length → (∀ j, j < l.length → (Spec.NamesLayer l.length j (.int i) ↔ j = a)) →
      l' = l.set a v → l'.length = l.length ∧ ∀ j, j < l.length →
        l'[j]? = if Spec.NamesLayer l.length j (.int i) then some v else l[j]? := by
    rintro a ha hn rfl
    refine ⟨List.length_set, fun j hj => ?_⟩
    rw [List.getElem?_set]
    by_cases hja : j = a
    · subst hja
      rw [if_pos rfl, if_pos ((hn j hj).2 rfl), if_pos hj]
    · rw [if_neg (fun e => hja e.symm), if_neg (fun e => hja ((hn j hj).1 e))]
  split at h
  · next hi =>
    refine key i.toNat (by omega) ?_ (Option.some.inj h).symm
    intro j hj
    simp only [Spec.NamesLayer, LayerKey.int.injEq]
    omega
  · split at h
    · next hi =>
      refine key (i + l.length).toNat (by omega) ?_ (Option.some.inj h).symm
      intro j hj
      simp only [Spec.NamesLayer, LayerKey.int.injEq]
      omega
    · cases h

theorem overrideRaw_spec {α : Type} (spec : List (LayerKey × α)) (l r : List α)
    (h : overrideRaw l spec = some r) :
    r.length = l.length ∧ ∀ j, j < l.length →
      r[j]? = match spec.reverse.find? fun kv => decide (Spec.NamesLayer l.length j kv.1) with
        | some kv => some kv.2
        | none => l[j]? := by
  induction spec generalizing l with
  | nil => cases h; exact ⟨rfl, fun j _ => rfl⟩
  | cons kv spec ih =>
    obtain ⟨k, v⟩ := kv
    cases k with
    | str s => cases h
    | int i =>
      unfold overrideRaw at h
      cases hp : pySetIdx l i v with
      | none => rw [hp] at h; cases h
      | some l' =>
        rw [hp] at h
        obtain ⟨h1, h2⟩ := ih l' h
        obtain ⟨h3, h4⟩ := pySetIdx_some l l' i v hp
        refine ⟨h1.trans h3, fun j hj => ?_⟩
        rw [h2 j (by omega), h3, List.reverse_cons, List.find?_append]
        cases hf : spec.reverse.find? fun kv => decide (Spec.NamesLayer l.length j kv.1) with
        | some kv => simp
        | none =>
          simp only [Option.none_or, List.find?_singleton]
          rw [h4 j hj]
          by_cases hn : Spec.NamesLayer l.length j (.int i)
          · simp [hn]
          · simp [hn]

theorem overrideRaw_none {α : Type} (spec : List (LayerKey × α)) (l : List α) :
    overrideRaw l spec = none ↔ ∃ kv ∈ spec, Spec.BadKey l.length kv.1 := by
  induction spec generalizing l with
  | nil => simp [overrideRaw]
  | cons kv spec ih =>
    obtain ⟨k, v⟩ := kv
    cases k with
    | str s =>
      simp only [overrideRaw, true_iff]
      exact ⟨_, List.mem_cons_self, Or.inl ⟨s, rfl⟩⟩
    | int i =>
      unfold overrideRaw
      cases hp : pySetIdx l i v with
      | none =>
        simp only [true_iff]
        exact ⟨_, List.mem_cons_self, Or.inr ⟨i, rfl, (pySetIdx_none l i v).1 hp⟩⟩
      | some l' =>
        simp only
        have hlen := (pySetIdx_some l l' i v hp).1
        rw [ih l', hlen]
        constructor
        · rintro ⟨kv, hm, hb⟩
          exact ⟨kv, List.mem_cons_of_mem _ hm, hb⟩
        · rintro ⟨kv, hm, hb⟩
          rcases List.mem_cons.1 hm with rfl | hm
          · exfalso
            rcases hb with ⟨s, hs⟩ | ⟨i', hi', hr⟩
            · cases hs
            · cases hi'
              rw [← pySetIdx_none l i v] at hr
              rw [hr] at hp
              cases hp
          · exact ⟨kv, hm, hb⟩

theorem overrideRaw_replicate {α : Type} (n : Nat) (dflt : α) (spec : List (LayerKey × α)) (r : List α)
    (h : overrideRaw (List.replicate n dflt) spec = some r) :
    r = (List.range n).map (Spec.layerValue n dflt spec) := by
  obtain ⟨h1, h2⟩ := overrideRaw_spec spec _ r h
  rw [List.length_replicate] at h1 h2
  apply List.ext_getElem?
  intro j
  by_cases hj : j < n
  · rw [h2 j hj, List.getElem?_map, List.getElem?_range hj]
    simp only [Option.map_some, Spec.layerValue]
    cases spec.reverse.find? fun kv => decide (Spec.NamesLayer n j kv.1) with
    | some kv => rfl
    | none => simp [List.getElem?_replicate, hj]
  · rw [List.getElem?_eq_none (by omega), List.getElem?_eq_none (by simp; omega)]

theorem find_unique {α : Type} (spec : List (LayerKey × α)) (hk : (spec.map Prod.fst).Nodup)
    (p : LayerKey → Bool) (k : LayerKey) (hp : ∀ kv ∈ spec, p kv.1 = true ↔ kv.1 = k) (v : α)
    (hv : (k, v) ∈ spec) : spec.reverse.find? (fun kv => p kv.1) = some (k, v) := by
  cases hf : spec.reverse.find? fun kv => p kv.1 with
  | none =>
    rw [List.find?_eq_none] at hf
    exact absurd ((hp _ hv).2 rfl) (hf _ (List.mem_reverse.2 hv))
  | some kv =>
    have hm := List.mem_of_find?_eq_some hf
    rw [List.mem_reverse] at hm
    have hpk := List.find?_some hf
    have hkk := (hp kv hm).1 hpk
    obtain ⟨k', v'⟩ := kv
    cases hkk
    congr 2
    have := List.inj_on_of_nodup_map hk hm hv rfl
    exact congrArg Prod.snd this

theorem allSome_eq {α : Type} (l : List (Option α)) (r : List α) :
    allSome l = some r ↔ l = r.map some := by
  induction l generalizing r with
  | nil => cases r <;> simp [allSome]
  | cons a l ih =>
    cases a with
    | none => cases r <;> simp [allSome]
    | some a =>
      cases r with
      | nil => simp [allSome]
      | cons b r =>
        simp only [allSome, Option.map_eq_some_iff, List.cons.injEq, List.map_cons, Option.some.injEq]
        constructor
        · rintro ⟨x, h1, h2, rfl⟩
          exact ⟨h2, (ih x).1 h1⟩
        · rintro ⟨h1, h2⟩
          exact ⟨r, (ih r).2 h2, h1, rfl⟩

/-! ## C61 -/

/-- **C61 (exact behaviour).**  A successful call returns the input size, then one size per hidden layer, each
that of the last entry naming the layer or else the default, then the output size. -/
theorem C61_architecture (inS outS n dflt : Nat) (spec : List (LayerKey × Nat)) (arch : List Nat)
    (h : getArchitecture inS outS n dflt spec = some arch) :
    arch = inS :: (List.range n).map (Spec.layerValue n dflt spec) ++ [outS] := by
  obtain ⟨nodes, h1, h2⟩ := Option.map_eq_some_iff.1 h
  rw [← h2, overrideRaw_replicate n dflt spec nodes h1]

/-- **C61.**  The call raises exactly when some key is a string or an integer outside `[-n, n)`. -/
theorem C61_raises_iff (inS outS n dflt : Nat) (spec : List (LayerKey × Nat)) :
    getArchitecture inS outS n dflt spec = none ↔ ∃ kv ∈ spec, Spec.BadKey n kv.1 := by
  unfold getArchitecture
  rw [Option.map_eq_none_iff, overrideRaw_none, List.length_replicate]

/-- **C61, partial.**  With a dictionary whose keys are distinct layer numbers `0 ≤ i < n`, every hidden layer
has its own value if it has one and the default otherwise.  Missing: negative keys, which should raise. -/
theorem C61_overrides_partial (inS outS n dflt : Nat) (spec : List (LayerKey × Nat))
    (hk : (spec.map Prod.fst).Nodup) (hr : ∀ kv ∈ spec, ∃ i : Nat, i < n ∧ kv.1 = .int i) :
    ∃ nodes : List Nat, getArchitecture inS outS n dflt spec = some (inS :: nodes ++ [outS]) ∧
      nodes.length = n ∧ ∀ i, ∀ hi : i < nodes.length,
        (∀ v, (LayerKey.int i, v) ∈ spec → nodes[i] = v) ∧
        ((∀ v, (LayerKey.int i, v) ∉ spec) → nodes[i] = dflt) := by
  cases h : getArchitecture inS outS n dflt spec with
  | none =>
    exfalso
    obtain ⟨kv, hm, hb⟩ := (C61_raises_iff inS outS n dflt spec).1 h
    obtain ⟨i, hi, hki⟩ := hr kv hm
    rcases hb with ⟨s, hs⟩ | ⟨j, hj, hjr⟩
    · rw [hki] at hs; cases hs
    · rw [hki] at hj
      cases hj
      omega
  | some arch =>
    refine ⟨(List.range n).map (Spec.layerValue n dflt spec), ?_, by simp, ?_⟩
    · rw [C61_architecture inS outS n dflt spec arch h]
    · intro i hi
      have hin : i < n := by simpa using hi
      have hiff : ∀ kv ∈ spec, decide (Spec.NamesLayer n i kv.1) = true ↔ kv.1 = .int i := by
        intro kv hm
        obtain ⟨j, hj, hkj⟩ := hr kv hm
        rw [hkj]
        simp only [Spec.NamesLayer, decide_eq_true_eq, LayerKey.int.injEq]
        omega
      simp only [List.getElem_map, List.getElem_range]
      constructor
      · intro v hv
        unfold Spec.layerValue
        rw [find_unique spec hk (fun k => decide (Spec.NamesLayer n i k)) (.int i) hiff v hv]
      · intro hnone
        unfold Spec.layerValue
        have : spec.reverse.find? (fun kv => decide (Spec.NamesLayer n i kv.1)) = none := by
          rw [List.find?_eq_none]
          intro kv hm hp
          rw [List.mem_reverse] at hm
          have := (hiff kv hm).1 hp
          obtain ⟨k, v⟩ := kv
          cases this
          exact hnone v hm
        rw [this]

/-- **C61 is false for negative layer numbers**: they do not raise but silently change a layer counted from
the end. -/
theorem C61_negative_false :
    ¬ ∀ (inS outS n dflt : Nat) (spec : List (LayerKey × Nat)),
      (∃ kv ∈ spec, ∃ i : Int, kv.1 = .int i ∧ (i < 0 ∨ (n : Int) ≤ i)) →
      getArchitecture inS outS n dflt spec = none := by
  intro h
  have := h 1 1 2 5 [(.int (-1), 7)] ⟨_, List.mem_singleton.2 rfl, -1, rfl, Or.inl (by decide)⟩
  revert this
  decide

/-- **C61.**  Biases: one entry per layer including the output layer, with the same override rule. -/
theorem C61_bias {β : Type} (n : Nat) (dflt : β) (spec : List (LayerKey × β)) :
    (getBias n dflt spec = none ↔ ∃ kv ∈ spec, Spec.BadKey (n + 1) kv.1) ∧
      ∀ bs, getBias n dflt spec = some bs →
        bs = (List.range (n + 1)).map (Spec.layerValue (n + 1) dflt spec) := by
  constructor
  · unfold getBias
    rw [overrideRaw_none, List.length_replicate]
  · intro bs h
    exact overrideRaw_replicate (n + 1) dflt spec bs h

theorem overrideAct_spec (spec : List (LayerKey × ActCfg)) (l r : List (Option String))
    (h : overrideAct l spec = some r) :
    ∃ spec' : List (LayerKey × Option String), overrideRaw l spec' = some r ∧
      List.Forall₂ (fun a b => singleLayerFunc a.2 = some b.2 ∧
        ∃ i, layerInt a.1 = some i ∧ b.1 = .int i) spec spec' := by
  induction spec generalizing l with
  | nil => exact ⟨[], h, .nil⟩
  | cons kc spec ih =>
    obtain ⟨k, c⟩ := kc
    unfold overrideAct at h
    cases hs : singleLayerFunc c with
    | none => rw [hs] at h; cases h
    | some f =>
      cases hi : layerInt k with
      | none => rw [hs, hi] at h; cases h
      | some i =>
        rw [hs, hi] at h
        simp only at h
        cases hp : pySetIdx l i f with
        | none => rw [hp] at h; cases h
        | some l' =>
          rw [hp] at h
          obtain ⟨spec', h1, h2⟩ := ih l' h
          refine ⟨(.int i, f) :: spec', ?_, .cons ⟨hs, i, hi, rfl⟩ h2⟩
          unfold overrideRaw
          rw [hp]
          exact h1

/-- **C61.**  Activations: `n + 1` functions, with the same override rule after the keys have been converted to
integers and the entries resolved. -/
theorem C61_activations (n : Nat) (dflt : ActCfg) (spec : List (LayerKey × ActCfg)) (fs : List (Option String))
    (h : getActivationFuncs n dflt spec = some fs) :
    ∃ d spec', singleLayerFunc dflt = some d ∧
      List.Forall₂ (fun a b => singleLayerFunc a.2 = some b.2 ∧
        ∃ i, layerInt a.1 = some i ∧ b.1 = LayerKey.int i) spec spec' ∧
      fs = (List.range (n + 1)).map (Spec.layerValue (n + 1) d spec') := by
  unfold getActivationFuncs at h
  cases hd : singleLayerFunc dflt with
  | none => rw [hd] at h; cases h
  | some d =>
    rw [hd] at h
    obtain ⟨spec', h1, h2⟩ := overrideAct_spec spec _ fs h
    exact ⟨d, spec', rfl, h2, overrideRaw_replicate (n + 1) d spec' fs h1⟩

/-- **C61 is false for the documented dictionary form** of an activation entry: it always raises. -/
theorem C61_activation_dict_raises (n : Nat) (dflt : ActCfg) (spec : List (LayerKey × ActCfg))
    (h : dflt = .dict ∨ ∃ k, (k, ActCfg.dict) ∈ spec) : getActivationFuncs n dflt spec = none := by
  cases hr : getActivationFuncs n dflt spec with
  | none => rfl
  | some fs =>
    exfalso
    obtain ⟨d, spec', hd, hf, _⟩ := C61_activations n dflt spec fs hr
    rcases h with rfl | ⟨k, hk⟩
    · cases hd
    · have : ∀ (l : List (LayerKey × ActCfg)) (l' : List (LayerKey × Option String)),
          List.Forall₂ (fun a b => singleLayerFunc a.2 = some b.2 ∧
            ∃ i, layerInt a.1 = some i ∧ b.1 = LayerKey.int i) l l' →
          (k, ActCfg.dict) ∉ l := by
        intro l l' hl
        induction hl with
        | nil => simp
        | cons hab _ ih =>
          intro hm
          rcases List.mem_cons.1 hm with hm | hm
          · rw [← hm] at hab
            cases hab.1
          · exact ih hm
      exact this spec spec' hf hk

/-- **C61.**  When the network is built, its layers chain: the first takes the input, each takes what the one
before gives, the last gives the output, and there are `n + 1` of them, each with its bias and activation. -/
theorem C61_layers {β : Type} (inS outS n : Nat) (nodes : Nat × List (LayerKey × Nat))
    (acts : ActCfg × List (LayerKey × ActCfg)) (biases : β × List (LayerKey × β)) (ls : List (Layer β))
    (h : buildLayers inS outS n nodes acts biases = some ls) :
    ls.length = n + 1 ∧
      (∀ i, ∀ hi : i < ls.length, i = 0 → (ls[i]).inSize = inS) ∧
      (∀ i, ∀ hi : i + 1 < ls.length, (ls[i + 1]).inSize = (ls[i]).outSize) ∧
      (∀ i, ∀ hi : i < ls.length, i = n → (ls[i]).outSize = outS) := by
  unfold buildLayers at h
  cases ha : getArchitecture inS outS n nodes.1 nodes.2 with
  | none => rw [ha] at h; cases h
  | some arch =>
    cases hf : getActivationFuncs n acts.1 acts.2 with
    | none => rw [ha, hf] at h; cases h
    | some fs =>
      cases hb : getBias n biases.1 biases.2 with
      | none => rw [ha, hf, hb] at h; cases h
      | some bs =>
        rw [ha, hf, hb] at h
        simp only at h
        have hA := C61_architecture inS outS n nodes.1 nodes.2 arch ha
        have hlen : arch.length = n + 2 := by rw [hA]; simp
        rw [allSome_eq] at h
        have hl : ls.length = n + 1 := by
          have := congrArg List.length h
          simp only [List.length_range, List.length_map] at this
          omega
        have hget : ∀ i, ∀ hi : i < ls.length, arch[i]? = some (ls[i]).inSize ∧
            arch[i + 1]? = some (ls[i]).outSize := by
          intro i hi
          have hi' : i < (List.range (arch.length - 1)).length := by
            rw [List.length_range]; omega
          have := congrArg (fun l => l[i]?) h
          simp only [List.getElem?_map, List.getElem?_eq_getElem hi', List.getElem?_eq_getElem hi,
            List.getElem_range, Option.map_some, Option.some.injEq] at this
          revert this
          cases h1 : arch[i]? with
          | none => intro hc; cases hc
          | some a =>
            cases h2 : arch[i + 1]? with
            | none => intro hc; cases hc
            | some b =>
              cases h3 : bs[i]? with
              | none => intro hc; cases hc
              | some bi =>
                cases h4 : fs[i]? with
                | none => intro hc; cases hc
                | some f =>
                  intro hc
                  have := (Option.some.inj hc).symm
                  rw [this]
                  exact ⟨rfl, rfl⟩
        refine ⟨hl, ?_, ?_, ?_⟩
        · rintro i hi rfl
          have := (hget 0 hi).1
          rw [hA] at this
          simpa using this.symm
        · intro i hi
          have h1 := (hget i (by omega)).2
          have h2 := (hget (i + 1) hi).1
          rw [h1] at h2
          exact (Option.some.inj h2).symm
        · rintro i hi rfl
          have := (hget i hi).2
          rw [hA] at this
          rw [show inS :: (List.range i).map (Spec.layerValue i nodes.1 nodes.2) ++ [outS] =
            (inS :: (List.range i).map (Spec.layerValue i nodes.1 nodes.2)) ++ [outS] from rfl,
            List.getElem?_append_right (by simp)] at this
          simpa using this.symm

example : getArchitecture 5 2 3 20 [(.int 1, 7), (.int 0, 9)] = some [5, 9, 7, 20, 2] := by decide
example : getActivationFuncs 1 (.str "Linear") [(.str "1", .str "abs")] = some [none, some "torch.abs"] := by
  decide +kernel
example : getActivationFuncs 1 (.str "relu") [(.int 0, .dict)] = none := by decide +kernel
example : ((buildLayers 5 2 1 (20, []) (.str "linear", [(.int 1, .str "abs")]) ((0 : Nat), [])).map
    fun ls => ls.map fun l => (l.inSize, l.outSize)) = some [(5, 20), (20, 2)] := by decide +kernel

/-! ## C85 -/

theorem updateHyper_eq {V : Type} (defaults : List (String × V)) (trial : Option (List (String × V)))
    (cfg : Option (String → Option V)) :
    (updateHyper defaults trial cfg).1 =
      defaults.map fun pd => (pd.1, ((trial.bind fun t => t.lookup pd.1).getD pd.2)) := by
  unfold updateHyper
  have key : ∀ (ds : List (String × V)) (st : List (String × V) × Option (String → Option V)),
      (ds.foldl (fun (st : List (String × V) × Option (String → Option V)) pd =>
        let v := (trial.bind fun t => t.lookup pd.1).getD pd.2
        (st.1 ++ [(pd.1, v)], st.2.map fun c => fun k => if k = pd.1 then some v else c k)) st).1 =
      st.1 ++ ds.map fun pd => (pd.1, ((trial.bind fun t => t.lookup pd.1).getD pd.2)) := by
    intro ds
    induction ds with
    | nil => intro st; simp
    | cons d ds ih =>
      intro st
      rw [List.foldl_cons, ih]
      simp only [List.map_cons, List.append_assoc, List.singleton_append]
  have := key defaults ([], cfg)
  simpa using this

/-- **C85 (exact behaviour).**  Without a trial the hyperparameters in use are the built-in defaults, whatever
the configuration says. -/
theorem C85_config_ignored {V : Type} (defaults : List (String × V)) (cfg : Option (String → Option V)) :
    (updateHyper defaults none cfg).1 = defaults := by
  rw [updateHyper_eq]
  simp

/-- **C85 (exact behaviour).**  With a trial, suggested values are used and everything else is the default. -/
theorem C85_trial_partial {V : Type} (defaults : List (String × V)) (t : List (String × V))
    (cfg : Option (String → Option V)) (name : String) (d : V) (hm : (name, d) ∈ defaults) :
    (name, (t.lookup name).getD d) ∈ (updateHyper defaults (some t) cfg).1 := by
  rw [updateHyper_eq]
  exact List.mem_map.2 ⟨(name, d), hm, rfl⟩

/-- **C85 (exact behaviour).**  The configuration afterwards has lost its own values: each hyperparameter entry
has been overwritten with the value in use. -/
theorem C85_config_overwritten {V : Type} (defaults : List (String × V)) (hn : (defaults.map Prod.fst).Nodup)
    (c : String → Option V) :
    ∃ c', (updateHyper defaults none (some c)).2 = some c' ∧
      (∀ name d, (name, d) ∈ defaults → c' name = some d) ∧
      ∀ name, name ∉ defaults.map Prod.fst → c' name = c name := by
  unfold updateHyper
  have key : ∀ (ds : List (String × V)) (acc : List (String × V)) (c : String → Option V),
      (ds.map Prod.fst).Nodup →
      ∃ c', (ds.foldl (fun (st : List (String × V) × Option (String → Option V)) pd =>
        let v := ((none : Option (List (String × V))).bind fun t => t.lookup pd.1).getD pd.2
        (st.1 ++ [(pd.1, v)], st.2.map fun c => fun k => if k = pd.1 then some v else c k))
          (acc, some c)).2 = some c' ∧
        (∀ name d, (name, d) ∈ ds → c' name = some d) ∧
        ∀ name, name ∉ ds.map Prod.fst → c' name = c name := by
    intro ds
    induction ds with
    | nil => intro acc c _; exact ⟨c, rfl, by simp, fun _ _ => rfl⟩
    | cons d ds ih =>
      intro acc c hnd
      rw [List.map_cons, List.nodup_cons] at hnd
      rw [List.foldl_cons]
      simp only [Option.bind_none, Option.map_some]
      obtain ⟨c', h1, h2, h3⟩ := ih (acc ++ [(d.1, d.2)]) (fun k => if k = d.1 then some d.2 else c k) hnd.2
      refine ⟨c', h1, ?_, ?_⟩
      · intro name v hm
        rcases List.mem_cons.1 hm with hm | hm
        · subst hm
          rw [h3 _ hnd.1]
          simp
        · exact h2 name v hm
      · intro name hm
        rw [List.map_cons, List.mem_cons, not_or] at hm
        rw [h3 name hm.2, if_neg hm.1]
  exact key defaults [] c hn

/-- **C85 is false**: a hyperparameter set in the configuration is not used. -/
theorem C85_false :
    ¬ ∀ (defaults : List (String × Nat)) (c : String → Option Nat) (name : String) (v d : Nat),
      (name, d) ∈ defaults → c name = some v → (name, v) ∈ (updateHyper defaults none (some c)).1 := by
  intro h
  have := h [("num_hidden_layers", 1)] (fun _ => some 3) "num_hidden_layers" 3 1 (by simp) rfl
  rw [C85_config_ignored] at this
  simp at this

example : ([("num_hidden_layers", 1), ("learning_rate", 2)].map Prod.fst).Nodup := by decide

/-! ## C86 -/

theorem trainEpoch_key (nLoss batch dataSize : Nat) (data : List (List Rat)) (k : Nat) (acc : List Rat)
    (hl : ∀ d ∈ data, d.length = nLoss) :
    ((data.zipIdx k).map fun p => (p.2, p.1)).foldl (trainStep batch dataSize)
      (List.replicate nLoss 0, acc) =
    (List.replicate nLoss 0, acc ++ ((data.zipIdx k).filter fun p =>
      decide (p.2 % batch = 0 ∨ (p.2 : Int) = (dataSize : Int) - 1)).map fun p => p.1.sum) := by
  induction data generalizing k acc with
  | nil => simp
  | cons d data ih =>
    have hd := hl d List.mem_cons_self
    have hzip : List.zipWith (· + ·) (List.replicate nLoss (0 : Rat)) d = d := by
      clear ih hl
      subst hd
      induction d with
      | nil => rfl
      | cons a d ih => simp [List.replicate_succ, ih]
    have hzero : d.map (fun _ => (0 : Rat)) = List.replicate nLoss 0 := by
      rw [List.map_const', hd]
    rw [List.zipIdx_cons, List.map_cons, List.foldl_cons]
    have hstep : trainStep batch dataSize (List.replicate nLoss 0, acc) (k, d) =
        (List.replicate nLoss 0, if k % batch = 0 ∨ (k : Int) = (dataSize : Int) - 1
          then acc ++ [d.sum] else acc) := by
      unfold trainStep
      simp only [hzip, hzero]
    rw [hstep, ih (k + 1) _ fun x hx => hl x (List.mem_cons_of_mem _ hx), List.filter_cons]
    by_cases hc : k % batch = 0 ∨ (k : Int) = (dataSize : Int) - 1
    · rw [if_pos hc, if_pos (by simpa using hc), List.map_cons, List.append_assoc]
      rfl
    · rw [if_neg hc, if_neg (by simpa using hc)]

/-- **C86 (exact behaviour).**  Each gradient step differentiates the losses of a single training element: the
one whose index is a multiple of the batch size, or the last one.  The others are dropped. -/
theorem C86_steps (nLoss batch dataSize : Nat) (data : List (List Rat)) (hl : ∀ d ∈ data, d.length = nLoss) :
    trainEpoch nLoss batch dataSize data = (data.zipIdx.filter fun p =>
      decide (p.2 % batch = 0 ∨ (p.2 : Int) = (dataSize : Int) - 1)).map fun p => p.1.sum := by
  unfold trainEpoch
  have := trainEpoch_key nLoss batch dataSize data 0 [] hl
  rw [this]
  simp

/-- **C86, partial.**  With batches of one element every element contributes to exactly one step.  Missing:
larger batches. -/
theorem C86_batch_one_partial (nLoss dataSize : Nat) (data : List (List Rat))
    (hl : ∀ d ∈ data, d.length = nLoss) : trainEpoch nLoss 1 dataSize data = data.map List.sum := by
  rw [C86_steps nLoss 1 dataSize data hl]
  simp only [Nat.mod_one, true_or, decide_true, List.filter_true]
  have : ∀ k, (data.zipIdx k).map (fun p => p.1.sum) = data.map List.sum := by
    clear hl
    induction data with
    | nil => intro k; rfl
    | cons d data ih => intro k; rw [List.zipIdx_cons, List.map_cons, ih, List.map_cons]
  exact this 0

/-- **C86 is false** for larger batches: the losses of the elements before the last of a batch never reach a
gradient step. -/
theorem C86_false :
    ¬ ∀ (nLoss batch : Nat) (data : List (List Rat)), 0 < batch → (∀ d ∈ data, d.length = nLoss) →
      (trainEpoch nLoss batch data.length data).sum = (data.map List.sum).sum := by
  intro h
  have := h 1 2 [[1], [1], [1], [1]] (by decide) (by decide)
  revert this
  decide +kernel

/-- **C86.**  One call of the loss update adds the mean over the prediction samples, so identical samples add
their common value. -/
theorem C86_mean (prev v : Rat) (n : Nat) :
    updateLoss prev (List.replicate (n + 1) v) = some (prev + v) := by
  unfold updateLoss
  have h : ((n + 1 : Nat) : Rat) ≠ 0 := Nat.cast_ne_zero.2 (by omega)
  rw [List.length_replicate, if_neg (by omega), List.sum_replicate, nsmul_eq_mul, mul_comm,
    mul_div_assoc, div_self h, mul_one]

example : ∀ d ∈ ([[1, 2], [3, 4], [5, 6]] : List (List Rat)), d.length = 2 := by decide
example : trainEpoch 2 2 3 [[1, 2], [3, 4], [5, 6]] = [3, 11] := by decide +kernel

end GeNSIT
