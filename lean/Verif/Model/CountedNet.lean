import Verif.Model.PrunedNet
import Verif.Model.Estimator

/-! Model of the resource estimation of a whole pruned network: the counters of
`mmrazor/models/task_modules/estimators/counters/` (see `Verif/Model/Estimator.lean`) on the forward pass of the network
of `Verif/Model/PrunedNet.lean`. -/

namespace Verif.CountedNet
open Verif Verif.DynamicOps Verif.ChannelNodes Verif.PrunedNet Verif.Estimator

variable {W B X : Type}

/-- What is counted for a module of the supernet (flops_params_counter.py lines 520-546 with conv_layer_counter.py lines
69-115, linear_layer_counter.py lines 14-20): `kernel m` are the sizes of the kernel of a convolution, `none` for a linear layer;
the active channels are those of the masks. Norm layers are two-dimensional ones with weight and bias. -/
def counted (kernel : Nat → Option (List Nat)) (mods : Nat → Module W B X) (tbl : List (Nat × List Bool × List Bool)) (m : Nat) : Estimator.Kind :=
  match mods m with
  | .conv c =>
    match kernel m with
    | some k => (Layer.conv "DynamicConv2d" k c.inC c.outC c.groups c.bias.isSome (some (count (masksOf tbl m).1))
        (some (count (masksOf tbl m).2))).counted
    | none => (Layer.linear c.inC c.outC c.bias.isSome (some (count (masksOf tbl m).1)) (some (count (masksOf tbl m).2))).counted
  | .chan fs => (Layer.norm "DynamicBatchNorm2d" fs.length true (some (count (masksOf tbl m).2))).counted

/-- What is counted for the module of the exported network: ordinary layers with the sizes of their parameters. -/
def exportedKind (kernel : Nat → Option (List Nat)) (mods : Nat → Module W B X) (tbl : List (Nat × List Bool × List Bool)) (m : Nat) :
    Estimator.Kind :=
  match exportModule mods tbl m with
  | .ok (.conv s) =>
    match kernel m with
    | some k => .conv k s.inC s.outC s.groups s.bias.isSome
    | none => .linear (s.inC * s.outC + biasNumel s.bias.isSome s.outC)
  | .ok (.chan gs) => .norm true (2 * gs.length)
  | .error _ => .uncounted

/-- The shape of a tensor of `batch` samples; `size` are the sizes of a channel. -/
def shapeOf (batch : Nat) (size : X → List Nat) (v : List X) : Shape := ⟨batch, v.length :: (v.head?.map size).getD []⟩

/-- The calls of the modules the hooks see (lines 398-426): the first input and the output of every node with a module. -/
def calls (batch : Nat) (size : X → List Nat) (nodes : List Node) (vs : List (List X)) : List Call :=
  (nodes.zip vs).filterMap fun q =>
    match q.1.module, q.1.prev with
    | some m, j :: _ => (vs[j]?).map fun u => ⟨m, shapeOf batch size u, shapeOf batch size q.2⟩
    | _, _ => none

end Verif.CountedNet
