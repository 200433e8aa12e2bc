import Verif.Py
import Verif.Float64
import Mathlib.Data.Rat.Floor
import Mathlib.Algebra.Order.Field.Rat

/-! Model of the FLOPs and parameter counting of
`mmrazor/models/task_modules/estimators/counters/` (flops_params_counter.py and
op_counters/). Python floats are exact rationals. -/

namespace Verif.Estimator
open Verif

/-- The shape of a tensor: its first (batch) dimension and the others. -/
structure Shape where
  batch : Nat
  dims : List Nat
deriving DecidableEq, Repr

/-- Number of elements. -/
def Shape.numel (s : Shape) : Nat := s.batch * s.dims.prod

/-- What the counter of a module reads from it. `params` is
`get_model_parameters_number(module)` (flops_params_counter.py lines 347-357): the number
of trainable elements the module holds, whatever part of them is active. -/
inductive Kind where
  /-- Conv1dCounter, Conv2dCounter, Conv3dCounter. -/
  | conv (kernel : List Nat) (cin cout groups : Nat) (bias : Bool)
  /-- DynamicConv2dCounter; the active channels, where a mutable is registered. -/
  | dynConv (kernel : List Nat) (cin cout groups : Nat) (bias : Bool) (actIn actOut : Option Nat)
  /-- LinearCounter, DynamicLinearCounter. -/
  | linear (params : Nat)
  /-- BNCounter and its subclasses. -/
  | norm (affine : Bool) (params : Nat)
  /-- DMCPBatchNorm2dCounter: the active features, and those of the tensor if present. -/
  | dmcpNorm (affine : Bool) (active : Nat) (tensor : Option ℚ)
  /-- ReLUCounter and its subclasses. -/
  | act (params : Nat)
  /-- PoolCounter and its subclasses. -/
  | pool (params : Nat)
  /-- UpsampleCounter. -/
  | upsample (params : Nat)
  /-- ConvTranspose2dCounter. -/
  | deconv (kh kw cin cout groups : Nat) (bias : Bool) (params : Nat)
  /-- A module without counter. -/
  | uncounted
deriving DecidableEq, Repr

/-- ConvCounter.add_count_hook, conv_layer_counter.py lines 13-44. -/
def convHook (kernel : List Nat) (cin cout groups : Nat) (bias : Bool) (i o : Shape) : ℚ × Int :=
  let per : ℚ := (kernel.prod * cin : ℚ) * ((cout : ℚ) / groups)
  let active : ℚ := i.batch * ((o.dims.drop 1).prod : Nat)
  (per * active + (if bias then cout * active else 0), pyInt (per + (if bias then (cout : ℚ) else 0)))

/-- `add_count_hook` of each counter: the amounts added to `__flops__` and `__params__`
by one call. conv_layer_counter.py 13-44 and 69-115, linear_layer_counter.py 14-20,
norm_layer_counter.py 13-20 and 75-91, activation_layer_counter.py 12-16,
pooling_layer_counter.py 12-16, upsample_layer_counter.py 12-20 (`output[0]` is the first
sample), deconv_layer_counter.py 12-39 (`output_height * output_height`). -/
def hook : Kind → Shape → Shape → ℚ × Int
  | .conv k cin cout g b, i, o => convHook k cin cout g b i o
  | .dynConv k cin cout g b ai ao, i, o => convHook k (ai.getD cin) (ao.getD cout) g b i o
  | .linear p, i, o => ((i.numel * (o.dims.getLast?.getD o.batch) : Nat), p)
  | .norm affine p, i, _ => (((if affine then 2 else 1) * i.numel : Nat), p)
  | .dmcpNorm affine active tensor, i, _ =>
    ((i.batch : ℚ) * tensor.getD (i.dims.headD 1) * ((i.dims.drop 1).prod : Nat) * (if affine then 2 else 1), active * 2)
  | .act p, _, o => ((o.numel : Nat), p)
  | .pool p, i, _ => ((i.numel : Nat), p)
  | .upsample p, _, o => ((o.dims.prod : Nat), p)
  | .deconv kh kw cin cout g b p, i, o =>
    ((kh * kw * cin * (cout / g) * (i.batch * (i.dims.drop 1).prod)
      + (if b then cout * i.batch * (o.dims.getD 1 0) * (o.dims.getD 1 0) else 0) : Nat), p)
  | .uncounted, _, _ => (0, 0)

/-- One call of a module during the counted forward pass. -/
structure Call where
  mod : Nat
  inp : Shape
  out : Shape
deriving DecidableEq, Repr

/-- `__flops__` and `__params__` of every module. -/
abbrev Acc := Nat → ℚ × Int

/-- `module.__flops__ += …; module.__params__ += …`. -/
def Acc.add (a : Acc) (m : Nat) (x : ℚ × Int) : Acc :=
  fun j => if j = m then ((a j).1 + x.1, (a j).2 + x.2) else a j

/-- The forward pass with the hooks registered (lines 398-426). -/
def run (kinds : Nat → Kind) (a : Acc) (calls : List Call) : Acc :=
  calls.foldl (fun a c => a.add c.mod (hook (kinds c.mod) c.inp c.out)) a

/-- `batch_counter_hook`, lines 470-486: the length of the first positional input, 1 when
the inputs are passed by name. -/
def batchCount : Option Nat → Nat
  | some b => b
  | none => 1

/-- `compute_average_flops_params_cost`, lines 379-395, over the distinct modules. -/
def average (mods : List Nat) (a : Acc) (batches : Nat) : Except Err (ℚ × Int) :=
  if batches = 0 then .error .zeroDivision
  else .ok ((mods.map fun m => (a m).1).sum / batches, (mods.map fun m => (a m).2).sum)

/-- `get_model_flops_params` up to the units, lines 80-107: counters start at zero
(`reset_flops_params_count`, 437-444), the model runs once, the costs are averaged. -/
def estimate (mods : List Nat) (kinds : Nat → Kind) (calls : List Call) (top : Option Nat) : Except Err (ℚ × Int) :=
  average mods (run kinds (fun _ => (0, 0)) calls) (batchCount top)

/-- `round(x, 3)` for `x ≥ 0`. -/
def round3 (x : ℚ) : ℚ := (roundHalfEven ((x * 1000).num.toNat) (x * 1000).den : ℚ) / 1000

/-- `params_units_convert`, lines 156-185. -/
def convert (units : String) (x : ℚ) : Except Err ℚ :=
  if units = "G" then .ok (round3 (x / 10 ^ 9))
  else if units = "M" then .ok (round3 (x / 10 ^ 6))
  else if units = "K" then .ok (round3 (x / 10 ^ 3))
  else .error .value

/-! ### Sub-modules -/

/-- The module tree; a module that occurs twice has the same id at both places. Counted
modules are the leaves. -/
inductive Tree where
  | leaf (id : Nat)
  | node (id : Nat) (children : List Tree)

/-- The module itself. -/
def Tree.id : Tree → Nat
  | .leaf i => i
  | .node i _ => i

mutual
/-- `accumulate_flops` (and, with `batch = 1`, `accumulate_params`), lines 317-335;
`children()` gives a module once even if it is registered under two names. -/
def accumulate (batch : Nat) (st : Nat → ℚ) : Tree → ℚ
  | .leaf i => st i / batch
  | .node _ cs => accumulateAll batch st [] cs
/-- The loop over the children. -/
def accumulateAll (batch : Nat) (st : Nat → ℚ) (seen : List Nat) : List Tree → ℚ
  | [] => 0
  | t :: ts => if t.id ∈ seen then accumulateAll batch st seen ts
    else accumulate batch st t + accumulateAll batch st (t.id :: seen) ts
end

mutual
/-- `model.modules()`: every module once, parents first. Returns the modules and the ids
seen so far. -/
def modules (memo : List Nat) : Tree → List Tree × List Nat
  | .leaf i => if i ∈ memo then ([], memo) else ([.leaf i], i :: memo)
  | .node i cs => if i ∈ memo then ([], memo)
    else let r := modulesAll (i :: memo) cs; (.node i cs :: r.1, r.2)
/-- The same over the children. -/
def modulesAll (memo : List Nat) : List Tree → List Tree × List Nat
  | [] => ([], memo)
  | t :: ts => let r := modules memo t; let s := modulesAll r.2 ts; (r.1 ++ s.1, s.2)
end

/-- One iteration of `accumulate_sub_module_flops_params`, lines 337-344: the sum is
stored in the module, converted. -/
def storeSum (conv : ℚ → ℚ) (batch : Nat) (st : Nat → ℚ) (m : Tree) : Nat → ℚ :=
  fun j => if j = m.id then conv (accumulate batch st m) else st j

/-- `accumulate_sub_module_flops_params`, lines 306-344. -/
def accumulateModules (conv : ℚ → ℚ) (batch : Nat) (st : Nat → ℚ) (t : Tree) : Nat → ℚ :=
  (modules [] t).1.foldl (storeSum conv batch) st

/-! ### Which counter is used -/

/-- `get_counter_type`, lines 520-546: the counter named after the class if it is
registered, else the counter named after the first class of the method resolution order
that is in `get_modules_list`. -/
def counterType (registry listed mro : List String) : String :=
  let name := mro.headD "" ++ "Counter"
  if name ∈ registry then name
  else match mro.find? (· ∈ listed) with
    | some b => b ++ "Counter"
    | none => name

/-- The registered counters (op_counters/*.py, and group_fisher/counters.py). -/
def registry : List String :=
  ["Conv1dCounter", "Conv2dCounter", "Conv3dCounter", "DynamicConv2dCounter", "LinearCounter", "DynamicLinearCounter",
   "BatchNorm1dCounter", "BatchNorm2dCounter", "BatchNorm3dCounter", "InstanceNorm1dCounter", "InstanceNorm2dCounter",
   "InstanceNorm3dCounter", "LayerNormCounter", "GroupNormCounter", "DMCPBatchNorm2dCounter", "ReLUCounter", "PReLUCounter",
   "ELUCounter", "LeakyReLUCounter", "ReLU6Counter", "UpsampleCounter", "ConvTranspose2dCounter",
   "MaxPool1dCounter", "MaxPool2dCounter", "MaxPool3dCounter", "AvgPool1dCounter", "AvgPool2dCounter", "AvgPool3dCounter",
   "AdaptiveMaxPool1dCounter", "AdaptiveMaxPool2dCounter", "AdaptiveMaxPool3dCounter", "AdaptiveAvgPool1dCounter",
   "AdaptiveAvgPool2dCounter", "AdaptiveAvgPool3dCounter", "GroupFisherConv2dCounter", "GroupFisherLinearCounter"]

/-- `get_modules_list`, lines 556-604 (by class name; the classes of mmcv have the names of those of PyTorch). -/
def listed : List String :=
  ["Conv1d", "Conv2d", "Conv3d", "ReLU", "PReLU", "ELU", "LeakyReLU", "ReLU6", "MaxPool1d", "AvgPool1d", "AvgPool2d",
   "MaxPool2d", "MaxPool3d", "AvgPool3d", "AdaptiveMaxPool1d", "AdaptiveAvgPool1d", "AdaptiveMaxPool2d", "AdaptiveAvgPool2d",
   "AdaptiveMaxPool3d", "AdaptiveAvgPool3d", "BatchNorm1d", "BatchNorm2d", "BatchNorm3d",
   "GroupNorm", "InstanceNorm1d", "InstanceNorm2d", "InstanceNorm3d", "LayerNorm", "Linear", "Upsample",
   "UpsamplingNearest2d", "UpsamplingBilinear2d", "ConvTranspose2d"]

/-- The method resolution order of the searchable layers (bricks/dynamic_conv.py 19, 73,
126, 185, 232; dynamic_linear.py 12; dynamic_norm.py 21, 96, 112, 128, 143, 206, 397). -/
def mro : String → List String
  | "DynamicConv2d" => ["DynamicConv2d", "Conv2d", "_ConvNd", "Module"]
  | "BigNasConv2d" => ["BigNasConv2d", "Conv2d", "_ConvNd", "Module"]
  | "OFAConv2d" => ["OFAConv2d", "Conv2d", "_ConvNd", "Module"]
  | "FuseConv2d" => ["FuseConv2d", "Conv2d", "_ConvNd", "Module"]
  | "DynamicConv2dAdaptivePadding" => ["DynamicConv2dAdaptivePadding", "DynamicConv2d", "Conv2d", "_ConvNd", "Module"]
  | "DynamicLinear" => ["DynamicLinear", "Linear", "Module"]
  | "DynamicBatchNorm1d" => ["DynamicBatchNorm1d", "_DynamicBatchNorm", "_BatchNorm", "_NormBase", "Module"]
  | "DynamicBatchNorm2d" => ["DynamicBatchNorm2d", "_DynamicBatchNorm", "_BatchNorm", "_NormBase", "Module"]
  | "DynamicBatchNorm3d" => ["DynamicBatchNorm3d", "_DynamicBatchNorm", "_BatchNorm", "_NormBase", "Module"]
  | "DMCPBatchNorm2d" => ["DMCPBatchNorm2d", "DynamicBatchNorm2d", "_DynamicBatchNorm", "_BatchNorm", "_NormBase", "Module"]
  | "DynamicLayerNorm" => ["DynamicLayerNorm", "LayerNorm", "Module"]
  | c => [c, "Module"]

/-! ### Searchable layers -/

/-- A searchable layer at its current choice: the full sizes and the active ones
(`none` where no mutable is registered). -/
inductive Layer where
  | conv (cls : String) (kernel : List Nat) (cin cout groups : Nat) (bias : Bool) (actIn actOut : Option Nat)
  | linear (cin cout : Nat) (bias : Bool) (actIn actOut : Option Nat)
  | norm (cls : String) (features : Nat) (affine : Bool) (active : Option Nat)
deriving DecidableEq, Repr

/-- Elements of a bias of `n` entries. -/
def biasNumel (b : Bool) (n : Nat) : Nat := if b then n else 0

/-- What is counted for the layer while it is searchable: the counter found for its
class, reading the layer. -/
def Layer.counted : Layer → Kind
  | .conv cls k cin cout g b ai ao =>
    if counterType registry listed (mro cls) = "DynamicConv2dCounter" then .dynConv k cin cout g b ai ao
    else if counterType registry listed (mro cls) = "Conv2dCounter" then .conv k cin cout g b
    else .uncounted
  | .linear cin cout b _ _ => .linear (cin * cout + biasNumel b cout)
  | .norm cls n affine _ =>
    if counterType registry listed (mro cls) ∈ registry then .norm affine (if affine then 2 * n else 0) else .uncounted

/-- What is counted for the exported layer: a plain convolution, linear or batch norm
with the active sizes (dynamic_conv_mixins.py 207-241, dynamic_mixins `to_static_op`). A
depthwise convolution gets as many groups as active inputs. -/
def Layer.exported : Layer → Kind
  | .conv _ k cin cout g b ai ao =>
    let g' := if g = cin ∧ cin = cout then ai.getD g else g
    .conv k (ai.getD cin) (ao.getD cout) g' b
  | .linear cin cout b ai ao => .linear (ai.getD cin * ao.getD cout + biasNumel b (ao.getD cout))
  | .norm _ n affine a => .norm affine (if affine then 2 * a.getD n else 0)

end Verif.Estimator
