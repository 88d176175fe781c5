import Verif.Config.ValidateProps
import Verif.Config.Shipped

/-!
# The shipped files meet the hypotheses of C98–C103
-/

namespace GeNSIT

open Spec

namespace Shipped

set_option maxRecDepth 100000

/-- The shipped `cfg_parameters.json` is a parameter file. -/
theorem params_file : ParamFile params := by
  refine ⟨paramTree_of_check _ (by decide +kernel) (by decide +kernel) (by decide +kernel), ⟨_, _, rfl⟩, ?_, by decide +kernel⟩
  exact mode_of_check _ (by decide +kernel)

/-- The shipped `cfg_schema.json` does not contain the text `not-found`. -/
theorem schema_clean : Clean schema := clean_of_check _ (by decide +kernel) (by decide +kernel)

/-- A decidable form of "every parameter is described in the schema". -/
def described (sch : Cfg) (x : List Key × Bool) : Bool :=
  if x.2 then (readAt sch (x.1 ++ [.str "sweep", .str "default"])).isSome && (readAt sch (x.1 ++ [.str "sweep", .str "range"])).isSome &&
    (readAt sch (x.1 ++ [.str "optional"])).isSome && (readAt sch (x.1 ++ [.str "sweepable"])).isSome
  else (readAt sch x.1).isSome && (readAt sch (x.1 ++ [.str "optional"])).isSome

end Shipped

/-- **C98 (shipped files).**  The shipped schema describes every parameter of the shipped parameter file, so that no
configuration is rejected for want of a schema entry. -/
theorem C98_shipped_described (p : List Key) :
    (IsPlain Shipped.params p → (readAt Shipped.schema p).isSome ∧ (readAt Shipped.schema (p ++ [.str "optional"])).isSome) ∧
    (IsSwept Shipped.params p → (readAt Shipped.schema (p ++ [.str "sweep", .str "default"])).isSome ∧
      (readAt Shipped.schema (p ++ [.str "sweep", .str "range"])).isSome ∧ (readAt Shipped.schema (p ++ [.str "optional"])).isSome ∧
      (readAt Shipped.schema (p ++ [.str "sweepable"])).isSome) := by
  have hall : ((paramsOf Shipped.params).all (Shipped.described Shipped.schema)) = true := by decide +kernel
  have hm := mem_paramsOf Shipped.params Shipped.params_file.toParamTree
  constructor
  · intro h
    have := (List.all_eq_true.1 hall) (p, false) ((hm p false).2 (Or.inl ⟨rfl, h⟩))
    simpa [Shipped.described] using this
  · intro h
    have := (List.all_eq_true.1 hall) (p, true) ((hm p true).2 (Or.inr ⟨rfl, h⟩))
    simpa [Shipped.described, and_assoc] using this

/-- Two of its parameters can be swept according to the parameter file but not according to the schema: a configuration that
sweeps one of them is not accepted. -/
theorem C98_shipped_unsweepable (chk : ValueCheck) (s : Cfg) (hs : Clean s) (hD : PlainDefaults Shipped.params s) (p : List Key)
    (hp : p = [.str "mcmc", .str "parameters", .str "theta_steps"] ∨
      p = [.str "mcmc", .str "destination_attraction", .str "destination_attraction_steps"])
    (hg : (readAt s (p ++ [.str "sweep"])).isSome) : ∀ st, validateConfig chk Shipped.params Shipped.schema s ≠ .ok st := by
  refine C98_rejected chk _ _ s Shipped.params_file Shipped.schema_clean hs hD p (Or.inr (Or.inr (Or.inl ⟨?_, hg, ?_⟩)))
  · rcases hp with rfl | rfl <;> unfold IsSwept <;> decide +kernel
  · rintro ⟨o, ho, ht⟩
    have : (readAt Shipped.schema (p ++ [.str "sweepable"])).any Cfg.truthy = false := by
      rcases hp with rfl | rfl <;> decide +kernel
    rw [ho] at this
    simp [ht] at this

example : IsSwept Shipped.params [.str "mcmc", .str "parameters", .str "theta_steps"] := by unfold IsSwept; decide +kernel

end GeNSIT
