import Mathlib.Data.List.Basic
import Mathlib.Data.Rat.Defs
import Mathlib.Algebra.Order.Ring.Rat
import Mathlib.Algebra.BigOperators.Group.List.Basic

/-!
# Model of the neural-network set-up and training loop

`none` stands for a raised Python exception.
-/

namespace GeNSIT

/-- A dictionary key of a `layer_specific` entry: an integer, or a string (as in a JSON or TOML file). -/
inductive LayerKey
  | int (i : Int)
  | str (s : String)
  deriving DecidableEq

/-- Python's `l[i] = v` with an integer index: negative indices count from the end, anything outside
`[-len, len)` raises `IndexError`. -/
def pySetIdx {α : Type} (l : List α) (i : Int) (v : α) : Option (List α) :=
  if 0 ≤ i ∧ i < l.length then some (l.set i.toNat v)
  else if i < 0 ∧ -(l.length : Int) ≤ i then some (l.set (i + l.length).toNat v)
  else none

/-- The loop `for layer_id, value in layer_specific.items(): l[layer_id] = value` of `get_architecture`
(HarrisWilsonModel_NeuralNet.py:49-50) and `get_bias` (lines 135-136).  A string key raises
`TypeError`. -/
def overrideRaw {α : Type} : List α → List (LayerKey × α) → Option (List α)
  | l, [] => some l
  | l, (.int i, v) :: rest =>
    match pySetIdx l i v with
    | none => none
    | some l' => overrideRaw l' rest
  | _, (.str _, _) :: _ => none

/-- `get_architecture` (HarrisWilsonModel_NeuralNet.py:40-51).  `cfg` is split into its default and the items
of `layer_specific`, in dictionary order. -/
def getArchitecture (inputSize outputSize : Nat) (nLayers : Nat) (dflt : Nat)
    (spec : List (LayerKey × Nat)) : Option (List Nat) :=
  (overrideRaw (List.replicate nLayers dflt) spec).map fun nodes => inputSize :: nodes ++ [outputSize]

/-- `get_bias` (HarrisWilsonModel_NeuralNet.py:115-138). -/
def getBias {β : Type} (nLayers : Nat) (dflt : β) (spec : List (LayerKey × β)) : Option (List β) :=
  overrideRaw (List.replicate (nLayers + 1) dflt) spec

/-- What an activation entry of the configuration can be. -/
inductive ActCfg
  | str (s : String)
  | dict
  | null
  | other
  deriving DecidableEq

/-- `ACTIVATION_FUNCS` (static/global_variables.py:737-766): lower-case name, and what the code gets for it:
`some (some f)` a callable, `some none` the value `None` (linear), `none` an exception — `sigmoid` calls a
one-argument lambda without argument and `threshold` needs two constructor arguments. -/
def activationTable : List (String × Option (Option String)) :=
  [("abs", some (some "torch.abs")), ("celu", some (some "CELU")), ("cos", some (some "torch.cos")),
   ("cosine", some (some "torch.cos")), ("elu", some (some "ELU")), ("gelu", some (some "GELU")),
   ("hardshrink", some (some "Hardshrink")), ("hardsigmoid", some (some "Hardsigmoid")),
   ("hardswish", some (some "Hardswish")), ("hardtanh", some (some "Hardtanh")),
   ("leakyrelu", some (some "LeakyReLU")), ("linear", some none), ("logsigmoid", some (some "LogSigmoid")),
   ("mish", some (some "Mish")), ("prelu", some (some "PReLU")), ("relu", some (some "ReLU")),
   ("rrelu", some (some "RReLU")), ("selu", some (some "SELU")), ("sigmoid", none),
   ("silu", some (some "SiLU")), ("sin", some (some "torch.sin")), ("sine", some (some "torch.sin")),
   ("softplus", some (some "Softplus")), ("softshrink", some (some "Softshrink")),
   ("swish", some (some "SiLU")), ("tanh", some (some "Tanh")), ("tanhshrink", some (some "Tanhshrink")),
   ("threshold", none)]

/-- `str.lower` on ASCII letters. -/
def lowerStr (s : String) : String := String.ofList (s.toList.map Char.toLower)

/-- `int(s)` for a string of decimal digits. -/
def digitsInt (s : String) : Option Int :=
  if s.toList = [] then none
  else (s.toList.foldl (fun a c => a.bind fun n =>
    if c.isDigit then some (n * 10 + (c.toNat - 48)) else none) (some 0)).map Int.ofNat

/-- `_single_layer_func` (HarrisWilsonModel_NeuralNet.py:73-99).  A dictionary entry raises, because
`layer_cfg.lower()` is called on the dictionary; a null entry falls off the end of its branch and returns
`None`, which `forward` treats as linear. -/
def singleLayerFunc : ActCfg → Option (Option String)
  | .str s =>
    match activationTable.lookup (lowerStr s) with
    | none => none
    | some r => r
  | .dict => none
  | .null => some none
  | .other => none

/-- `int(layer_id)` for the keys we need: integers, and strings of decimal digits (a leading minus sign or
surrounding blanks, which Python also accepts, are not modelled and raise here). -/
def layerInt : LayerKey → Option Int
  | .int i => some i
  | .str s => digitsInt s

/-- The loop of `get_activation_funcs` (HarrisWilsonModel_NeuralNet.py:106-110). -/
def overrideAct : List (Option String) → List (LayerKey × ActCfg) → Option (List (Option String))
  | l, [] => some l
  | l, (k, c) :: rest =>
    match singleLayerFunc c, layerInt k with
    | some f, some i =>
      match pySetIdx l i f with
      | none => none
      | some l' => overrideAct l' rest
    | _, _ => none

/-- `get_activation_funcs` (HarrisWilsonModel_NeuralNet.py:54-112). -/
def getActivationFuncs (nLayers : Nat) (dflt : ActCfg) (spec : List (LayerKey × ActCfg)) :
    Option (List (Option String)) :=
  match singleLayerFunc dflt with
  | none => none
  | some f => overrideAct (List.replicate (nLayers + 1) f) spec

/-- One layer of the network: sizes, bias interval, activation. -/
structure Layer (β : Type) where
  inSize : Nat
  outSize : Nat
  bias : β
  act : Option String

/-- A loop that raises as soon as one of its turns raises. -/
def allSome {α : Type} : List (Option α) → Option (List α)
  | [] => some []
  | none :: _ => none
  | some a :: l => (allSome l).map (a :: ·)

/-- The layers built by `NeuralNet.__init__` (HarrisWilsonModel_NeuralNet.py:195-232) with the activations
`forward` applies to them (lines 296-302). -/
def buildLayers {β : Type} (inputSize outputSize nLayers : Nat) (nodes : Nat × List (LayerKey × Nat))
    (acts : ActCfg × List (LayerKey × ActCfg)) (biases : β × List (LayerKey × β)) :
    Option (List (Layer β)) :=
  match getArchitecture inputSize outputSize nLayers nodes.1 nodes.2,
    getActivationFuncs nLayers acts.1 acts.2, getBias nLayers biases.1 biases.2 with
  | some arch, some fs, some bs =>
    allSome ((List.range (arch.length - 1)).map fun i =>
      match arch[i]?, arch[i + 1]?, bs[i]?, fs[i]? with
      | some a, some b, some bi, some f => some { inSize := a, outSize := b, bias := bi, act := f }
      | _, _, _, _ => none)
  | _, _, _ => none

/-! ## Hyperparameters -/

/-- `update_hyperparameters` of the neural net (HarrisWilsonModel_NeuralNet.py:242-289); the same code is in
GraphAttentionNetwork.py:133-173, XGB.py:66-90, GBRT.py:59-82 and RandomForest.py:59-82.  Values are opaque.
`trial` is the optuna dictionary if there is a trial, `cfg` the `hyperparameters` dictionary of the
configuration if there is a configuration.  `getattr(dict, pname, None)` looks for an *attribute* of the
dictionary object; a dictionary has no attribute with the name of a hyperparameter, so it is always
`None` and both tests on it succeed.  Returned: the hyperparameters in use and the configuration
afterwards. -/
def updateHyper {V : Type} (defaults : List (String × V)) (trial : Option (List (String × V)))
    (cfg : Option (String → Option V)) : List (String × V) × Option (String → Option V) :=
  defaults.foldl (fun (st : List (String × V) × Option (String → Option V)) pd =>
    let v := (trial.bind fun t => t.lookup pd.1).getD pd.2
    (st.1 ++ [(pd.1, v)], st.2.map fun c => fun k => if k = pd.1 then some v else c k)) ([], cfg)

/-! ## Training loop -/

/-- One turn of the loop over the training set (experiments.py:2101-2170 and `model_update_and_export`,
653-701).  State: the losses accumulated so far (by loss function), and the list of the gradient steps taken
(each is the summed loss that was differentiated).  `new` is what `update_loss` adds. -/
def trainStep (batch dataSize : Nat) (st : List Rat × List Rat) (tn : Nat × List Rat) :
    List Rat × List Rat :=
  let loss := List.zipWith (· + ·) st.1 tn.2
  let steps :=
    if tn.1 % batch = 0 ∨ (tn.1 : Int) = (dataSize : Int) - 1 then st.2 ++ [loss.sum] else st.2
  -- lines 695-699: the losses are reset whether or not a step was taken
  (loss.map fun _ => 0, steps)

/-- One epoch over the per-element losses. -/
def trainEpoch (nLoss batch dataSize : Nat) (data : List (List Rat)) : List Rat :=
  ((data.zipIdx.map fun p => (p.2, p.1)).foldl (trainStep batch dataSize)
    (List.replicate nLoss 0, [])).2

/-- `update_loss` (HarrisWilsonModel_NeuralNet.py:421-547) for one loss function: the previous value plus the
mean over the prediction samples.  `none`: no samples (the code divides by zero). -/
def updateLoss (prev : Rat) (samples : List Rat) : Option Rat :=
  if samples.length = 0 then none else some (prev + samples.sum / samples.length)

end GeNSIT
