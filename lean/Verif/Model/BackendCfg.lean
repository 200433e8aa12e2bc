import Verif.Py

/-!
Backend configurations of the quantizers
(`mmrazor/structures/quantization/backend_config/*.py`), the fusion of layers and the exchange of
layers for those of quantisation-aware training which `prepare` of the quantizers does with them,
and the tables of supported modules (`mmrazor/models/quantizers/native_quantizer.py`).

Simplifications.  A network is a sequence of operations, each using the result of the one before.
Of torch (1.13) these facts are used: a `BackendConfig` holds one entry per pattern, a later entry
replaces an earlier one with the same pattern; patterns list the operations backwards;
`_fuse_fx` goes through the network from the end and takes the longest pattern with a fuser that
ends at the current operation; the fuser for a transposed convolution with batch norm raises an
exception in quantisation-aware training; without a configuration `_fuse_fx` takes that of torch for
its native backend, of which `native.py` is a copy; the default kind of observation is a different
observer for the output; `prepare` exchanges a module for the `qat_module` of its entry.
Operations without a constructor of their own are given by name.
-/

namespace Verif.BackendCfg

/-- Dimension of a convolution or batch norm. -/
inductive Dim where
  | d1 | d2 | d3
deriving DecidableEq, Repr

/-- The ways to call ReLU: `nn.ReLU`, `F.relu`, `torch.relu` and the method of a tensor. -/
inductive Relu where
  | module | functional | torch | method
deriving DecidableEq, Repr

/-- Operations and modules of torch. `fused…`: `nn.intrinsic`; `qat…`: `nn.qat` and
`nn.intrinsic.qat`; `ref…`: `nn.quantized._reference`. -/
inductive Op where
  | conv (d : Dim) | convT (d : Dim) | bn (d : Dim) | linear | relu (k : Relu)
  | funConv (d : Dim) | funLinear
  | fusedConvRelu (d : Dim) | fusedConvBn (d : Dim) | fusedConvBnRelu (d : Dim)
  | fusedLinearRelu | fusedLinearBn | fusedBnRelu (d : Dim)
  | qatConv (d : Dim) | qatConvRelu (d : Dim) | qatConvBn (d : Dim) | qatConvBnRelu (d : Dim)
  | qatLinear | qatLinearRelu | qatLinearBn
  | refConv (d : Dim) | refConvT (d : Dim) | refLinear
  | named (n : String) | qatNamed (n : String) | refNamed (n : String)
deriving DecidableEq, Repr

/-- A pattern: one operation, `(a, b)` or `(a, (b, c))`, the last operation first. -/
inductive Pat where
  | one (a : Op) | two (a b : Op) | three (a b c : Op)
deriving DecidableEq, Repr

/-- The methods for fusing: `reverse_sequential_wrapper2`, `reverse2(fuse_conv_bn)`,
`reverse3(fuse_conv_bn_relu)`, `reverse2(fuse_convtranspose_bn)` and `reverse2(fuse_linear_bn)`. -/
inductive Fuser where
  | sequential | convBn | convBnRelu | convTBn | linearBn
deriving DecidableEq, Repr

/-- How the output is observed. -/
inductive Obs where
  | different | share
  /-- by the number of tensors among the arguments -/
  | byArgs (zero one two : Obs)
deriving DecidableEq, Repr

/-- Number types. -/
inductive DType where
  | quint8 | qint8 | quint4x2 | float | float16
deriving DecidableEq, Repr

/-- `DTypeConfig`. -/
structure DT where
  input : DType
  output : DType
  weight : Option DType := none
  bias : Option DType := none
  dynamic : Bool := false
deriving DecidableEq, Repr

/-- `BackendPatternConfig`. -/
structure Cfg where
  pattern : Pat
  dtypes : List DT
  obs : Obs := .different
  root : Option Op := none
  ref : Option Op := none
  qat : Option Op := none
  fused : Option Op := none
  fuser : Option Fuser := none
  index : List (String × Nat) := []
  observed : Bool := true
  /-- whether the observer of the output is replaced by one with fixed parameters -/
  fixed : Bool := false
deriving DecidableEq, Repr

/-- `BackendConfig.configs`. -/
abbrev Table := List Cfg

/-- `BackendConfig.set_backend_pattern_config` (torch). -/
def Table.put (t : Table) (c : Cfg) : Table :=
  if t.any (fun e => e.pattern = c.pattern) then
    t.map fun e => if e.pattern = c.pattern then c else e
  else t ++ [c]

/-- `BackendConfig.set_backend_pattern_configs` (torch). -/
def Table.puts (t : Table) (cs : List Cfg) : Table := cs.foldl Table.put t

/-- The entry of a pattern. -/
def Table.get (t : Table) (p : Pat) : Option Cfg := t.find? fun e => e.pattern = p

/-! ### common_operator_config_utils.py -/

/-- lines 77-107: `_get_binary_op_configs`. -/
def binaryOps (dt : List DT) : List Cfg :=
  ([.named "operator.add", .named "torch.add", .named "operator.mul", .named "torch.mul"].flatMap fun o : Op =>
    [Pat.two (.relu .module) o, .two (.relu .functional) o, .two (.relu .torch) o, .one o].map fun p =>
      { pattern := p, dtypes := dt, obs := .byArgs .different .share .different })
  ++ [{ pattern := .one (.named "torch.matmul"), dtypes := dt }]

/-- lines 110-210: `_get_linear_configs`. -/
def linearOps (dt : List DT) : List Cfg :=
  [{ pattern := .one .linear, dtypes := dt, root := some .linear, ref := some .refLinear, qat := some .qatLinear },
   { pattern := .one .qatLinear, dtypes := dt, root := some .linear, ref := some .refLinear },
   { pattern := .one .funLinear, dtypes := dt, index := [("weight", 1), ("bias", 2)] },
   { pattern := .two (.relu .module) .linear, dtypes := dt, fuser := some .sequential, fused := some .fusedLinearRelu },
   { pattern := .two (.relu .functional) .linear, dtypes := dt, fuser := some .sequential, fused := some .fusedLinearRelu },
   { pattern := .one .fusedLinearRelu, dtypes := dt, root := some .linear, ref := some .refLinear, qat := some .qatLinearRelu },
   { pattern := .one .qatLinearRelu, dtypes := dt, root := some .linear, ref := some .refLinear },
   { pattern := .two (.relu .module) .funLinear, dtypes := dt },
   { pattern := .two (.relu .functional) .funLinear, dtypes := dt },
   { pattern := .two (.bn .d1) .linear, dtypes := dt, fuser := some .linearBn, fused := some .fusedLinearBn },
   { pattern := .one .fusedLinearBn, dtypes := dt, root := some .linear, ref := some .refLinear, qat := some .qatLinearBn },
   { pattern := .one .qatLinearBn, dtypes := dt, root := some .linear, ref := some .refLinear }]

/-- lines 213-377: `_get_conv_configs`, the part for one dimension. -/
def convOpsOf (dt : List DT) (d : Dim) : List Cfg :=
  [{ pattern := .one (.conv d), dtypes := dt, root := some (.conv d), ref := some (.refConv d), qat := some (.qatConv d) },
   { pattern := .one (.qatConv d), dtypes := dt, root := some (.conv d), ref := some (.refConv d) },
   { pattern := .one (.funConv d), dtypes := dt, index := [("weight", 1), ("bias", 2)] },
   { pattern := .two (.relu .module) (.conv d), dtypes := dt, fuser := some .sequential, fused := some (.fusedConvRelu d) },
   { pattern := .two (.relu .functional) (.conv d), dtypes := dt, fuser := some .sequential, fused := some (.fusedConvRelu d) },
   { pattern := .one (.fusedConvRelu d), dtypes := dt, root := some (.conv d), ref := some (.refConv d), qat := some (.qatConvRelu d) },
   { pattern := .one (.qatConvRelu d), dtypes := dt, root := some (.conv d), ref := some (.refConv d) },
   { pattern := .two (.relu .module) (.funConv d), dtypes := dt },
   { pattern := .two (.relu .functional) (.funConv d), dtypes := dt },
   { pattern := .one (.fusedConvRelu d), dtypes := dt, qat := some (.qatConvRelu d) },
   { pattern := .one (.qatConvRelu d), dtypes := dt, root := some (.conv d), ref := some (.refConv d) },
   { pattern := .two (.bn d) (.conv d), dtypes := dt, fuser := some .convBn, fused := some (.fusedConvBn d) },
   { pattern := .three (.relu .module) (.bn d) (.conv d), dtypes := dt, fuser := some .convBnRelu, fused := some (.fusedConvBnRelu d) },
   { pattern := .three (.relu .functional) (.bn d) (.conv d), dtypes := dt, root := some (.conv d), fuser := some .convBnRelu, fused := some (.fusedConvBnRelu d) },
   { pattern := .one (.fusedConvBn d), dtypes := dt, qat := some (.qatConvBn d) },
   { pattern := .one (.fusedConvBnRelu d), dtypes := dt, qat := some (.qatConvBnRelu d) },
   { pattern := .one (.qatConvBn d), dtypes := dt, root := some (.conv d), ref := some (.refConv d) },
   { pattern := .one (.qatConvBnRelu d), dtypes := dt, root := some (.conv d), ref := some (.refConv d) },
   { pattern := .one (.convT d), dtypes := dt, root := some (.convT d), ref := some (.refConvT d) },
   { pattern := .two (.bn d) (.convT d), dtypes := dt, fuser := some .convTBn, root := some (.convT d), ref := some (.refConvT d) }]

/-- lines 213-377: `_get_conv_configs`. -/
def convOps (dt : List DT) : List Cfg := [Dim.d1, .d2, .d3].flatMap (convOpsOf dt)

/-- lines 380-384: `_get_cat_config`. -/
def catOp (dt : List DT) : Cfg := { pattern := .one (.named "torch.cat"), dtypes := dt, obs := .share }

/-- lines 387-404: `_get_ln_configs`. -/
def lnOps (dt : List DT) : List Cfg :=
  [{ pattern := .one (.named "nn.LayerNorm"), dtypes := dt },
   { pattern := .one (.named "F.layer_norm"), dtypes := dt, index := [("weight", 2), ("bias", 3)] }]

/-- lines 407-450: `_get_default_op_configs`. -/
def defaultOps (dt : List DT) : List Cfg :=
  (["nn.ELU", "nn.LeakyReLU", "nn.Hardswish", "nn.InstanceNorm1d", "nn.InstanceNorm2d", "nn.InstanceNorm3d", "nn.Dropout",
    "nn.PReLU", "F.elu", "F.hardswish", "F.leaky_relu", "F.dropout"].map fun n => { pattern := .one (.named n), dtypes := dt })
  ++ [{ pattern := .one (.named "F.group_norm"), dtypes := dt, index := [("weight", 2), ("bias", 3)] },
      { pattern := .one (.named "F.instance_norm"), dtypes := dt, index := [("weight", 3), ("bias", 4)] }]

/-- The keys of torch's `_FIXED_QPARAMS_OP_TO_OBSERVER`. -/
def fixedNames : List String :=
  ["nn.Hardsigmoid", "F.hardsigmoid", "hardsigmoid", "hardsigmoid_", "nn.Sigmoid", "torch.sigmoid", "sigmoid", "sigmoid_",
   "nn.Softmax", "nn.Tanh", "torch.tanh", "tanh", "tanh_"]

/-- lines 453-473: `_get_fixed_qparams_op_configs`. -/
def fixedOps (dt : List DT) : List Cfg :=
  fixedNames.map fun n => { pattern := .one (.named n), dtypes := dt, fixed := true }

/-- lines 491-546: the operations of `_get_share_qparams_op_configs`; a name without a dot is the
method of a tensor. -/
def shareNames : List Op :=
  [.named "nn.AdaptiveAvgPool1d", .named "nn.AdaptiveAvgPool2d", .named "nn.AdaptiveAvgPool3d", .named "nn.AvgPool1d",
   .named "nn.AvgPool2d", .named "nn.AvgPool3d", .named "nn.Hardtanh", .named "nn.Identity", .named "nn.MaxPool1d",
   .named "nn.MaxPool2d", .named "nn.MaxPool3d", .relu .module, .named "torch.adaptive_avg_pool1d",
   .named "F.adaptive_avg_pool2d", .named "F.adaptive_avg_pool3d", .named "F.hardtanh", .named "F.hardtanh_",
   .named "F.interpolate", .named "F.max_pool1d", .named "F.max_pool2d", .named "F.max_pool3d", .relu .functional,
   .named "F.relu6", .named "torch.avg_pool1d", .named "torch.avg_pool2d", .named "torch.avg_pool3d", .named "torch.clamp",
   .named "torch.flatten", .named "torch.mean", .named "torch.repeat_interleave", .named "torch.transpose",
   .named "torch.squeeze", .named "torch.stack", .named "torch.unsqueeze", .named "operator.floordiv", .named "contiguous",
   .named "clamp", .named "detach", .named "detach_", .named "mean", .named "permute", .named "repeat",
   .named "repeat_interleave", .named "reshape", .named "resize_", .relu .method, .named "relu_", .named "shape",
   .named "size", .named "squeeze", .named "squeeze_", .named "transpose", .named "unsqueeze", .named "unsqueeze_",
   .named "view"]

/-- lines 476-550: `_get_share_qparams_op_configs`. -/
def shareOps (dt : List DT) : List Cfg :=
  shareNames.map fun o => { pattern := .one o, dtypes := dt, obs := .share }

/-- lines 553-590: `_get_bn_configs`. -/
def bnOps (dt : List DT) : List Cfg :=
  ([Dim.d2, .d3].flatMap fun d =>
    [{ pattern := .two (.relu .module) (.bn d), dtypes := dt, fuser := some .sequential, fused := some (.fusedBnRelu d) },
     { pattern := .two (.relu .functional) (.bn d), dtypes := dt, fuser := some .sequential, fused := some (.fusedBnRelu d) },
     { pattern := .one (.bn d), dtypes := dt }])
  ++ [Dim.d2, .d3].map fun d => { pattern := .one (.fusedBnRelu d), dtypes := dt }

/-- lines 593-606: `_get_rnn_op_configs`. -/
def rnnOps (dt : List DT) : List Cfg :=
  ["GRUCell", "LSTMCell", "RNNCell", "LSTM"].map fun n =>
    { pattern := .one (.named n), dtypes := dt, root := some (.named n), ref := some (.refNamed n) }

/-- lines 609-633: `_get_embedding_op_configs`. -/
def embeddingOps (dt : List DT) : List Cfg :=
  ["Embedding", "EmbeddingBag"].flatMap fun n =>
    [{ pattern := .one (.named n), dtypes := dt, qat := some (.qatNamed n), root := some (.named n), ref := some (.refNamed n), observed := false },
     { pattern := .one (.qatNamed n), dtypes := dt, root := some (.named n), ref := some (.refNamed n), observed := false }]

/-! ### The four backends -/

/-- native.py lines 40-45, openvino.py lines 30-35, academic.py lines 33-38. -/
def weighted : DT := { input := .quint8, output := .quint8, weight := some .qint8, bias := some .float }

/-- native.py lines 47-50. -/
def plain8 : DT := { input := .quint8, output := .quint8 }

/-- native.py lines 52-62. -/
def dynamic8 : DT := { input := .quint8, output := .float, weight := some .qint8, bias := some .float, dynamic := true }

/-- native.py lines 64-73. -/
def dynamic16 : DT := { input := .float16, output := .float, weight := some .float16, bias := some .float, dynamic := true }

/-- native.py lines 77-82. -/
def inOut8 : DT := { input := .quint8, output := .quint8, weight := some .float, bias := some .float }

/-- native.py lines 84-94. -/
def weightOnly (w : DType) : DT := { input := .float, output := .float, weight := some w }

/-- native.py lines 22-135: `get_native_backend_config`. -/
def native : Table :=
  (((((((((((Table.puts [] (convOps [weighted])).puts (linearOps [weighted, dynamic8, dynamic16])).puts
    (binaryOps [weighted])).put (catOp [plain8])).puts (defaultOps [plain8])).puts (fixedOps [weighted])).puts
    (shareOps [plain8])).puts (bnOps [plain8])).puts (lnOps [inOut8])).puts (rnnOps [dynamic8, dynamic16])).puts
    (embeddingOps [weightOnly .quint8, weightOnly .quint4x2]))

/-- openvino.py lines 41-49 and tensorrt.py lines 35-43: `addmm_config`. -/
def addmm (dt : DT) : Cfg :=
  { pattern := .one (.named "torch.addmm"), dtypes := [dt], index := [("bias", 0), ("input", 1), ("weight", 2)] }

/-- openvino.py lines 22-77: `get_openvino_backend_config`. -/
def openvino : Table :=
  ((((((Table.puts [] (convOps [weighted])).put (addmm weighted)).put (catOp [plain8])).puts (linearOps [weighted])).puts
    (binaryOps [weighted])).puts (shareOps [plain8]))

/-- tensorrt.py lines 28-33. -/
def signed8 : DT := { input := .qint8, output := .qint8, weight := some .qint8, bias := some .float }

/-- tensorrt.py lines 20-56: `get_tensorrt_backend_config`. -/
def tensorrt : Table :=
  ((Table.puts [] (convOps [signed8])).put (addmm signed8)).puts (linearOps [signed8])

/-- academic.py lines 19-44: `get_academic_backend_config`. -/
def academic : Table := (Table.puts [] (convOps [weighted])).puts (linearOps [weighted])

/-- mapping.py lines 10-25: the tables by name; for every other version of torch than 1.13.0 and
1.13.1 (`is113`) the names have no table. An unknown name is a `KeyError`. -/
def backendConfigs (is113 : Bool) (n : String) : Except Err (Option Table) :=
  if n = "academic" then .ok (if is113 then some academic else none)
  else if n = "native" then .ok (if is113 then some native else none)
  else if n = "tensorrt" then .ok (if is113 then some tensorrt else none)
  else if n = "openvino" then .ok (if is113 then some openvino else none)
  else .error .key

/-! ### Fusion and exchange -/

/-- One use of a fuser: the exception of `fuse_convtranspose_bn` in quantisation-aware training, or
the fused module. -/
def Cfg.fuse (c : Cfg) : Option (Except Err Op) :=
  match c.fuser with
  | none => none
  | some .convTBn => some (.error .runtime)
  | some _ =>
    match c.fused with
    | none => none
    | some m => some (.ok m)

/-- What the table does with a pattern. -/
def Table.fuser (t : Table) (p : Pat) : Option (Except Err Op) := (t.get p).bind Cfg.fuse

/-- One fused module put in front of the rest, which has been dealt with. -/
def join (m : Except Err Op) (rest : Except Err (List Op)) : Except Err (List Op) :=
  match m with
  | .error e => .error e
  | .ok m =>
    match rest with
    | .error e => .error e
    | .ok r => .ok (m :: r)

/-- `_fuse_fx` (torch) on a network given backwards. -/
def fuseRev (t : Table) : List Op → Except Err (List Op)
  | [] => .ok []
  | [a] => .ok [a]
  | [a, b] =>
    match t.fuser (.two a b) with
    | some m => join m (.ok [])
    | none => .ok [a, b]
  | a :: b :: c :: r =>
    match t.fuser (.three a b c) with
    | some m => join m (fuseRev t r)
    | none =>
      match t.fuser (.two a b) with
      | some m => join m (fuseRev t (c :: r))
      | none => join (.ok a) (fuseRev t (b :: c :: r))

/-- `_fuse_fx` (torch). -/
def fuse (t : Table) (l : List Op) : Except Err (List Op) :=
  match fuseRev t l.reverse with
  | .error e => .error e
  | .ok r => .ok r.reverse

/-- The exchange of a module in `prepare` (torch). -/
def Table.swap (t : Table) (m : Op) : Op := ((t.get (.one m)).bind Cfg.qat).getD m

/-- `prepare`, native_quantizer.py lines 237-249: fusion and exchange with the table of the
backend. -/
def prepare (t : Table) (l : List Op) : Except Err (List Op) :=
  match fuse t l with
  | .error e => .error e
  | .ok r => .ok (r.map t.swap)

/-- `prepare`, academic_quantizer.py lines 107-122: the fusion does not get the table. -/
def prepareAcademic (l : List Op) : Except Err (List Op) :=
  match fuse native l with
  | .error e => .error e
  | .ok r => .ok (r.map academic.swap)

/-! ### Deployment -/

/-- native_quantizer.py lines 50-57: `SUPPORT_QAT_MODULES`. -/
def supported : List Op :=
  [.qatConvBn .d1, .qatConvBn .d2, .qatConvBn .d3, .qatConvBnRelu .d1, .qatConvBnRelu .d2, .qatConvBnRelu .d3,
   .qatConvRelu .d1, .qatConvRelu .d2, .qatConvRelu .d3, .qatLinearBn, .qatLinearRelu, .qatConv .d1, .qatConv .d2,
   .qatConv .d3, .qatLinear]

/-- native_quantizer.py lines 59-67: `MERGE_BN_MAPPINGS`. -/
def merged : List (Op × Op) :=
  [(.qatConvBn .d1, .qatConv .d1), (.qatConvBn .d2, .qatConv .d2), (.qatConvBn .d3, .qatConv .d3),
   (.qatConvBnRelu .d1, .qatConvRelu .d1), (.qatConvBnRelu .d2, .qatConvRelu .d2), (.qatConvBnRelu .d3, .qatConvRelu .d3),
   (.qatLinearBn, .qatLinear)]

/-- native_quantizer.py lines 272-321 with `keep_w_fake_quant`: the type of the module after
deployment; unsupported modules stay. -/
def deploy (m : Op) : Op :=
  if supported.contains m then (merged.lookup m).getD m else m

end Verif.BackendCfg
