import Verif.NN.Props

/-!
# Activation names (C61)
-/

namespace GeNSIT

/-- What each documented activation name stands for (`none` = linear, i.e. no function). -/
def Spec.activationOf : List (String × Option String) :=
  [("abs", some "torch.abs"), ("celu", some "CELU"), ("cos", some "torch.cos"), ("cosine", some "torch.cos"), ("elu", some "ELU"),
   ("gelu", some "GELU"), ("hardshrink", some "Hardshrink"), ("hardsigmoid", some "Hardsigmoid"), ("hardswish", some "Hardswish"),
   ("hardtanh", some "Hardtanh"), ("leakyrelu", some "LeakyReLU"), ("linear", none), ("logsigmoid", some "LogSigmoid"),
   ("mish", some "Mish"), ("prelu", some "PReLU"), ("relu", some "ReLU"), ("rrelu", some "RReLU"), ("selu", some "SELU"),
   ("silu", some "SiLU"), ("sin", some "torch.sin"), ("sine", some "torch.sin"), ("softplus", some "Softplus"),
   ("softshrink", some "Softshrink"), ("swish", some "SiLU"), ("tanh", some "Tanh"), ("tanhshrink", some "Tanhshrink")]

/-- **C61.**  A name gives every layer its function, whatever the case of its letters. -/
theorem C61_activation_names (n : Nat) (s name : String) (f : Option String) (h : (name, f) ∈ Spec.activationOf)
    (hs : s.toList.map Char.toLower = name.toList) :
    getActivationFuncs n (.str s) [] = some (List.replicate (n + 1) f) := by
  have hl : lowerStr s = name := by unfold lowerStr; rw [hs, String.ofList_toList]
  have key : ∀ p ∈ Spec.activationOf, activationTable.lookup p.1 = some (some p.2) := by decide +kernel
  have := key _ h
  unfold getActivationFuncs singleLayerFunc
  simp only [hl, this]
  rfl

/-- Any other text raises; in particular `sigmoid` and `threshold`, which the documentation lists, do. -/
theorem C61_activation_unknown (n : Nat) (s : String) (spec : List (LayerKey × ActCfg))
    (hs : ∀ p ∈ Spec.activationOf, s.toList.map Char.toLower ≠ p.1.toList) :
    getActivationFuncs n (.str s) spec = none := by
  have key : ∀ p ∈ activationTable, p.2 = none ∨ p.1 ∈ Spec.activationOf.map Prod.fst := by decide +kernel
  have hl : ∀ p ∈ Spec.activationOf, lowerStr s ≠ p.1 := by
    intro p hp h
    refine hs p hp ?_
    rw [← h]; unfold lowerStr; rw [String.toList_ofList]
  unfold getActivationFuncs singleLayerFunc
  cases hlook : activationTable.lookup (lowerStr s) with
  | none => simp only [hlook]
  | some r =>
    obtain ⟨a, b, hab⟩ := List.lookup_eq_some_iff.1 hlook
    have hm : (lowerStr s, r) ∈ activationTable := by rw [hab.1]; simp
    rcases key _ hm with h | h
    · dsimp only at h; subst h; simp only [hlook]
    · exfalso
      obtain ⟨p, hp, he⟩ := List.mem_map.1 h
      exact hl p hp he.symm

/-- **C61 is false for two documented names.** -/
theorem C61_sigmoid_false (n : Nat) (spec : List (LayerKey × ActCfg)) :
    getActivationFuncs n (.str "sigmoid") spec = none ∧ getActivationFuncs n (.str "threshold") spec = none :=
  ⟨C61_activation_unknown n _ spec (by decide +kernel), C61_activation_unknown n _ spec (by decide +kernel)⟩

example : getActivationFuncs 2 (.str "ReLU") [] = some [some "ReLU", some "ReLU", some "ReLU"] :=
  C61_activation_names 2 "ReLU" "relu" (some "ReLU") (by decide +kernel) (by decide +kernel)

end GeNSIT
