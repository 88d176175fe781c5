import Verif.Inputs.MaskProps
import Mathlib.Data.Rat.Floor
import Mathlib.Data.List.Perm.Basic
import Mathlib.Data.List.Nodup

/-!
# Model of the conversions of the input data (`gensit/inputs.py:83-101`, `246-389`, `464-494`)

`copy`, `pass_to_device`, `receive_from_device`, `cast_to_xarray` and `cast_from_xarray`. Arrays are as in `Verif.Inputs.Model`;
here an array also has a kind: NumPy, tensor (with the device it lives on), or labelled array (with its coordinates).

Not modelled: the conversions of `grand_total`, `margins` and `true_parameters` (scalars and vectors, always converted), the
attribute `log_destination_attraction` (set by no function of the class), floating point, and the state left behind by a failed
conversion.
-/

set_option linter.unusedSimpArgs false
set_option linter.unusedVariables false

namespace GeNSIT

/-- What an attribute of the data is stored as. -/
inductive DKind where
  | numpy
  | tensor (gpu : Bool)
  | labelled (coords : List (List Nat))
deriving DecidableEq, Repr

/-- An array with its kind. -/
structure DVal where
  kind : DKind
  arr : InArr
deriving DecidableEq, Repr

/-- What is raised by the conversions. -/
inductive DError where
  | typeError | valueError | keyError | casting | missingData
deriving DecidableEq, Repr

/-- The object: its data, its dimensions, the flag `data_in_device`, and whether the configured device is a GPU. -/
structure DState where
  attrs : List (String × DVal)
  dims : DimMap
  inDevice : Bool
  gpu : Bool
deriving DecidableEq, Repr

/-- A loop over names that replaces attributes: `step` gets the name and the current value (`none`: not there, or `None`) and
returns the new value, or nothing if the attribute stays as it is. -/
def castEach (step : String → Option DVal → Except DError (Option DVal)) :
    List String → List (String × DVal) → Except DError (List (String × DVal))
  | [], attrs => .ok attrs
  | n :: r, attrs =>
    match step n (attrs.lookup n) with
    | .error e => .error e
    | .ok none => castEach step r attrs
    | .ok (some v) => castEach step r (inSet n v attrs)

/-- `[data.dims[name] for name in schema["dims"]]`, used as sizes. -/
def dimSizes (d : DimMap) : List String → Except DError (List Nat)
  | [] => .ok []
  | k :: r =>
    match d.lookup k with
    | none => .error .keyError
    | some none => .error .typeError
    | some (some n) => (dimSizes d r).map (n :: ·)

/-- `torch.reshape(x, shape)`: the number of entries must be the same. -/
def reshapeTo (shape : List Nat) (a : InArr) : Except DError InArr :=
  if shape.prod = a.vals.length then .ok ⟨shape, a.vals⟩ else .error .valueError

/-- One attribute in `pass_to_device` (lines 347-374): `torch.from_numpy` accepts NumPy arrays only; an attribute with dimensions is
reshaped to them and moved to the device, one without stays where it is. -/
def passStep (s : DState) (f : Field) (v : Option DVal) : Except DError (Option DVal) :=
  match v with
  | none => .ok none
  | some v =>
    if v.kind ≠ .numpy then .error .typeError
    else if f.dims = [] then .ok (some ⟨.tensor false, v.arr⟩)
    else
      match dimSizes s.dims f.dims with
      | .error e => .error e
      | .ok shape => (reshapeTo shape v.arr).map fun a => some ⟨.tensor s.gpu, a⟩

/-- The attributes that `pass_to_device` goes through: `TRAIN_SCHEMA` without `dims`, `grand_total`, `margins`, `true_parameters`
(line 348). -/
def passFields : List Field := trainSchema.filter fun f => f.name ≠ "dims" ∧ f.name ≠ "grand_total"

/-- The schema entry of a name. -/
def fieldOf (name : String) : Field := (inputSchema.find? fun f => f.name = name).getD (trainField name [] [])

/-- `pass_to_device` (lines 344-389). -/
def passToDevice (s : DState) : Except DError DState :=
  if s.inDevice then .ok s
  else
    match castEach (fun n v => passStep s (fieldOf n) v) (passFields.map (·.name)) s.attrs with
    | .error e => .error e
    | .ok attrs => .ok { s with attrs := attrs, inDevice := true }

/-- `unpack_dims(self.data, time_dims = False)` as sizes. -/
def tableSizes (d : DimMap) : List (Option Nat) → Except DError (List Nat)
  | [] => .ok []
  | none :: _ => .error .typeError
  | some n :: r => (tableSizes d r).map (n :: ·)

/-- `x.cpu().detach().numpy()`: of a tensor. -/
def receiveStep (s : DState) (name : String) (v : Option DVal) : Except DError (Option DVal) :=
  match v with
  | none => .ok none
  | some v =>
    match v.kind with
    | .tensor _ =>
      if name = "cost_matrix" ∨ name = "ground_truth_table" then
        match tableSizes s.dims (tableShape s.dims) with
        | .error e => .error e
        | .ok shape => (reshapeTo shape v.arr).map fun a => some ⟨.numpy, a⟩
      else .ok (some ⟨.numpy, v.arr⟩)
    | _ => .error .typeError

/-- The attributes that `receive_from_device` names. -/
def receivedNames : List String :=
  ["origin_demand", "destination_attraction_ts", "origin_attraction_ts", "cost_matrix", "total_cost_by_origin", "ground_truth_table"]

/-- `receive_from_device` (lines 464-494). -/
def receiveFromDevice (s : DState) : Except DError DState :=
  if s.inDevice = false then .ok s
  else
    match castEach (receiveStep s) receivedNames s.attrs with
    | .error e => .error e
    | .ok attrs => .ok { s with attrs := attrs, inDevice := false }

/-- The attributes whose schema says `cast_to_xarray`, in the order of `INPUT_SCHEMA`. -/
def castable : List String :=
  ["destination_attraction_ts", "ground_truth_table", "test_cells_mask", "test_validation_cells_mask", "validation_cells_mask",
   "zero_train_cells_mask", "train_cells_mask"]

/-- Their dimensions. -/
def castDims (name : String) : List String :=
  if name = "destination_attraction_ts" then ["destination", "time"] else ["origin", "destination"]

/-- The names a call goes through (lines 249-255, 293-299): those asked for that can be cast; all of them if none are asked for.
(The code takes the intersection of two sets, whose order is arbitrary; see `C119_order_irrelevant`.) -/
def castNames (datasets : List String) : List String :=
  if datasets = [] then castable else castable.filter (· ∈ datasets)

/-- `np.arange(1, d+1, 1)`. -/
def coordsOf (n : Nat) : List Nat := (List.range n).map (· + 1)

/-- One attribute in `cast_to_xarray` (lines 301-343): the array must have the sizes of the coordinates. -/
def toStep (s : DState) (name : String) (v : Option DVal) : Except DError (Option DVal) :=
  match v with
  | none => .ok none
  | some v =>
    match v.kind with
    | .labelled _ => .ok none
    | .tensor true => .error .casting
    | _ =>
      match dimSizes s.dims (castDims name) with
      | .error e => .error e
      | .ok sizes =>
        if v.arr.shape = sizes then .ok (some ⟨.labelled (sizes.map coordsOf), v.arr⟩) else .error .valueError

/-- `cast_to_xarray(datasets)`. -/
def castToXarray (s : DState) (datasets : List String) : Except DError DState :=
  (castEach (toStep s) (castNames datasets) s.attrs).map fun a => { s with attrs := a }

/-- Conversion to `int32`: towards zero. -/
def truncQ (q : ℚ) : ℚ := if 0 ≤ q then (⌊q⌋ : ℚ) else (⌈q⌉ : ℚ)

/-- One attribute in `cast_from_xarray` (lines 257-288): every array becomes a tensor of `int32`; a missing attribute raises. -/
def fromStep (s : DState) (name : String) (v : Option DVal) : Except DError (Option DVal) :=
  match v with
  | none => .error .missingData
  | some v =>
    match v.kind with
    | .tensor _ => .ok none
    | .labelled _ => .ok (some ⟨.tensor s.gpu, ⟨v.arr.shape, v.arr.vals.map truncQ⟩⟩)
    | .numpy => .error .casting

/-- `cast_from_xarray(datasets)`. -/
def castFromXarray (s : DState) (datasets : List String) : Except DError DState :=
  (castEach (fromStep s) (castNames datasets) s.attrs).map fun a => { s with attrs := a }

/-- `copy(datasets)` (lines 83-101) on the attributes of the data, whatever they are; `none` stands for `None`. `known` is
`INPUT_SCHEMA`, which contains `dims`. -/
def copyAttrs {V : Type} (known : String → Bool) (datasets : List String) (attrs : List (String × Option V)) :
    List (String × Option V) :=
  let interest := fun n => known n && ((attrs.lookup n).bind id).isSome
  let keep := fun n => interest n && (datasets.isEmpty || datasets.contains n)
  attrs.filter fun p => !(known p.1) || keep p.1

/-! ## The loop -/

/-- If the loop succeeds, every attribute is what its own step made of it. -/
theorem castEach_spec {step : String → Option DVal → Except DError (Option DVal)} {L : List String}
    {attrs attrs' : List (String × DVal)} (hnd : L.Nodup) (h : castEach step L attrs = .ok attrs') :
    (∀ n, n ∉ L → attrs'.lookup n = attrs.lookup n) ∧
    ∀ n ∈ L, ∃ o, step n (attrs.lookup n) = .ok o ∧ attrs'.lookup n = o.orElse fun _ => attrs.lookup n := by
  induction L generalizing attrs with
  | nil => simp [castEach] at h; subst h; simp
  | cons m r ih =>
    simp only [List.nodup_cons] at hnd
    unfold castEach at h
    cases hs : step m (attrs.lookup m) with
    | error e => rw [hs] at h; simp at h
    | ok o =>
      rw [hs] at h
      cases o with
      | none =>
        obtain ⟨h1, h2⟩ := ih hnd.2 h
        refine ⟨fun n hn => h1 n (fun e => hn (by simp [e])), fun n hn => ?_⟩
        rcases List.mem_cons.mp hn with rfl | hn
        · exact ⟨none, hs, by rw [h1 n hnd.1]; rfl⟩
        · exact h2 n hn
      | some v =>
        obtain ⟨h1, h2⟩ := ih hnd.2 h
        refine ⟨fun n hn => ?_, fun n hn => ?_⟩
        · simp only [List.mem_cons, not_or] at hn
          rw [h1 n hn.2, lookup_inSet, if_neg hn.1]
        · rcases List.mem_cons.mp hn with rfl | hn
          · exact ⟨some v, hs, by rw [h1 n hnd.1, lookup_inSet, if_pos rfl]; rfl⟩
          · rename_i hn'
            have hne : n ≠ m := fun e => hnd.1 (e ▸ hn)
            obtain ⟨o, ho1, ho2⟩ := h2 n hn
            rw [lookup_inSet, if_neg hne] at ho1 ho2
            exact ⟨o, ho1, ho2⟩

/-- The loop succeeds if every step does. -/
theorem castEach_total {step : String → Option DVal → Except DError (Option DVal)} {L : List String}
    {attrs : List (String × DVal)} (hnd : L.Nodup) (h : ∀ n ∈ L, ∃ o, step n (attrs.lookup n) = .ok o) :
    ∃ attrs', castEach step L attrs = .ok attrs' := by
  induction L generalizing attrs with
  | nil => exact ⟨attrs, rfl⟩
  | cons m r ih =>
    simp only [List.nodup_cons] at hnd
    unfold castEach
    obtain ⟨o, ho⟩ := h m (by simp)
    rw [ho]
    cases o with
    | none => exact ih hnd.2 fun n hn => h n (by simp [hn])
    | some v =>
      apply ih hnd.2
      intro n hn
      have hne : n ≠ m := fun e => hnd.1 (e ▸ hn)
      rw [lookup_inSet, if_neg hne]
      exact h n (by simp [hn])

theorem castNames_nodup (datasets : List String) : (castNames datasets).Nodup := by
  unfold castNames
  split
  · decide
  · exact List.Nodup.filter _ (by decide)

theorem passNames_nodup : (passFields.map (·.name)).Nodup := by decide

end GeNSIT
