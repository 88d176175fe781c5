import Verif.Outputs.Model

/-!
# Specification vocabulary for outputs
-/

namespace GeNSIT.Spec

open GeNSIT

/-- Iterations `1, …, N` at which a sample is due: at least `start` and divisible by `every`. -/
def dueTimes (start every N : Nat) : List Nat := (List.range' 1 N).filter fun t => decide (start ≤ t) && decide (every ∣ t)

/-- Of the values of the first, second, … update those that are due. -/
def dueValues {V : Type} (start every : Nat) (vals : List V) : List V :=
  ((vals.zipIdx 1).filter fun x => decide (start ≤ x.2) && decide (every ∣ x.2)).map (·.1)

/-- Two samples carry the same coordinate values (as sets) along the listed dimensions. -/
def AgreeAlong (dims : List String) (a b : Sample) : Prop :=
  ∀ k ∈ dims, ∃ xs ys, a.coords k = some xs ∧ b.coords k = some ys ∧ ∀ z, z ∈ xs ↔ z ∈ ys

/-- The dimensions of a sample that must be shared. -/
def sharedOf (sharedDims : List String) (s : Sample) : List String := s.dims.filter fun d => sharedDims.contains d

/-- The element `t` of the training data ends a batch or the data, so the model is updated there. -/
def updatesAt (batch dataSize t : Nat) : Bool := decide (t % batch = 0) || decide (t = dataSize - 1)

end GeNSIT.Spec
