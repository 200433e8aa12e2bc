import Verif.Model.BackendCfg

/-! Definitions used in the statements of `Verif/Props/BackendCfg.lean`. -/

namespace Verif.BackendCfg

/-- The layers a module computes, one after the other. All ways to call ReLU are one. -/
def parts : Op → List Op
  | .relu _ => [.relu .module]
  | .fusedConvRelu d | .qatConvRelu d => [.conv d, .relu .module]
  | .fusedConvBn d | .qatConvBn d => [.conv d, .bn d]
  | .fusedConvBnRelu d | .qatConvBnRelu d => [.conv d, .bn d, .relu .module]
  | .fusedLinearRelu | .qatLinearRelu => [.linear, .relu .module]
  | .fusedLinearBn | .qatLinearBn => [.linear, .bn .d1]
  | .fusedBnRelu d => [.bn d, .relu .module]
  | .qatConv d => [.conv d]
  | .qatLinear => [.linear]
  | .qatNamed n => [.named n]
  | o => [o]

/-- The operations of a pattern in the order in which they are applied. -/
def Pat.ops : Pat → List Op
  | .one a => [a]
  | .two a b => [b, a]
  | .three a b c => [c, b, a]

/-- A table whose fused modules and modules for quantisation-aware training compute what they stand
for. -/
def Sound (t : Table) : Prop :=
  ∀ c ∈ t, (∀ m, c.fuse = some (.ok m) → parts m = c.pattern.ops.flatMap parts) ∧
    ∀ m q, c.pattern = .one m → c.qat = some q → parts q = parts m

/-- The tables of this repository. -/
def tables : List Table := [native, openvino, tensorrt, academic]

/-- The two calls of ReLU that are fused. -/
def Fusable (k : Relu) : Prop := k = .module ∨ k = .functional

/-- A network extended by one module, if there is a network. -/
def snoc (x : Except Err (List Op)) (m : Op) : Except Err (List Op) :=
  match x with
  | .error e => .error e
  | .ok r => .ok (r ++ [m])

/-- Operations that move, select or repeat values, by function or method of a tensor. -/
def moving : List String :=
  ["torch.flatten", "torch.transpose", "torch.squeeze", "torch.stack", "torch.unsqueeze", "torch.repeat_interleave",
   "torch.cat", "nn.Identity", "contiguous", "detach", "permute", "repeat", "repeat_interleave", "reshape", "squeeze",
   "squeeze_", "transpose", "unsqueeze", "unsqueeze_", "view"]

/-- Layers whose results lie in a fixed range. -/
def bounded : List String := ["nn.Sigmoid", "torch.sigmoid", "sigmoid", "nn.Hardsigmoid", "F.hardsigmoid", "nn.Tanh", "torch.tanh", "tanh", "nn.Softmax"]

end Verif.BackendCfg
