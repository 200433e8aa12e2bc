import Verif.Model.DynamicOps
import Verif.Model.ChannelNodes

/-! Model of a whole pruned network: the graph of channel nodes
(`mmrazor/models/task_modules/tracer/` and `mmrazor/structures/graph/channel_nodes.py`, see
`Verif/Model/ChannelNodes.lean`), the masks its search units hand to the layers
(`mmrazor/models/mutables/mutable_channel/units/mutable_channel_unit.py`), and the layers
(`mmrazor/models/architectures/dynamic_ops/`, see `Verif/Model/DynamicOps.lean`), run one after another as
the model's `forward` does.

`X` is the data of one channel. What a node does to a channel without looking at the others (activations,
poolings, additions of two channels, cutting a channel into its entries) is given by functions. -/

namespace Verif.PrunedNet
open Verif Verif.DynamicOps Verif.ChannelNodes

variable {W B X : Type}

/-- A module of the network: a convolution or linear layer, or a layer that treats every channel by itself
(a batch norm in evaluation mode), one function per channel. -/
inductive Module (W B X : Type) where
  | conv (c : Conv W B)
  | chan (fs : List (X → X))

/-- What the nodes of a network do: the inputs by name, the modules, and the operations without
parameters by the name of the node. -/
structure Ops (X : Type) where
  input : String → List X
  layer : Nat → List X → Except Err (List X)
  act : String → X → X
  op : String → X → X → X
  split : String → X → List X

/-- Channel by channel `((v op w₁) op w₂) …`; other numbers of channels raise a RuntimeError. -/
def bindVals (f : X → X → X) : List X → List (List X) → Except Err (List X)
  | v, [] => .ok v
  | v, w :: rest => if v.length = w.length then bindVals f (List.zipWith f v w) rest else .error .runtime

/-- The module of a node. -/
def runLayer (o : Ops X) (n : Node) (v : List X) : Except Err (List X) :=
  match n.module with
  | some m => o.layer m v
  | none => .error .attribute

/-- One node of the forward pass. A node with a union (line 163 of channel_nodes.py) may also be an
operation without parameters on every channel. The output node gives nothing on. -/
def evalNode (o : Ops X) (n : Node) (ins : List (List X)) : Except Err (List X) :=
  match n.kind, ins with
  | .input _, _ => .ok (o.input n.name)
  | .mix _, [v] => runLayer o n v
  | .group _ _, [v] => runLayer o n v
  | .groupNorm _ _, [v] => runLayer o n v
  | .passUnion, v :: _ => if n.module = none then .ok (v.map (o.act n.name)) else runLayer o n v
  | .pass, [v] => .ok (v.map (o.act n.name))
  | .bind, v :: rest => bindVals (o.op n.name) v rest
  | .cat, _ => .ok ins.flatten
  | .expand _, [v] => .ok (v.flatMap (o.split n.name))
  | .stop, _ => .ok []
  | _, _ => .error .type

/-- The values of the predecessors. -/
def valuesOf (done : List (List X)) : List Nat → Except Err (List (List X))
  | [] => .ok []
  | i :: rest =>
    match done[i]?, valuesOf done rest with
    | some v, .ok vs => .ok (v :: vs)
    | _, _ => .error .index

/-- The forward pass: the values of all nodes in order. -/
def evalAll (o : Ops X) : List Node → List (List X) → Except Err (List (List X))
  | [], done => .ok done
  | n :: rest, done =>
    match valuesOf done n.prev with
    | .error e => .error e
    | .ok ins =>
      match evalNode o n ins with
      | .error e => .error e
      | .ok v => evalAll o rest (done ++ [v])

/-- The masks of the modules, read off the search units for the input and output channels of their nodes
(mutable_channel_unit.py lines 258-282: every unit registers its mask for its ranges of the module's
channels, as `maskOf` of the channel graph puts together). -/
def register (read : Tensor → Except Err (List Bool)) : List (Node × Rec) → Except Err (List (Nat × List Bool × List Bool))
  | [] => .ok []
  | (n, r) :: rest =>
    match n.module with
    | none => register read rest
    | some m =>
      match read r.inp with
      | .error e => .error e
      | .ok a =>
        match read r.out with
        | .error e => .error e
        | .ok b =>
          match register read rest with
          | .error e => .error e
          | .ok t => .ok ((m, a, b) :: t)

/-- A module with its masks. -/
def masked (c : Conv W B) (p : List Bool × List Bool) : Conv W B := { c with inMask := some p.1, outMask := some p.2 }

/-- The masks of a module. -/
def masksOf (tbl : List (Nat × List Bool × List Bool)) (m : Nat) : List Bool × List Bool := (tbl.lookup m).getD ([], [])

/-- The forward pass of a module of the supernet (dynamic_conv_mixins.py lines 197-205, dynamic_norm.py lines
58-97): convolutions take the rows and columns of the active channels, norm layers the entries. -/
def dynLayer [AddCommMonoid X] (corr : Nat → W → X → X) (bc : Nat → B → X) (mods : Nat → Module W B X)
    (tbl : List (Nat × List Bool × List Bool)) (m : Nat) (v : List X) : Except Err (List X) :=
  match mods m with
  | .conv c => (masked c (masksOf tbl m)).forward (corr m) (bc m) v
  | .chan fs =>
    match maskIndex (masksOf tbl m).2 fs with
    | .error e => .error e
    | .ok gs => if v.length = gs.length then .ok (List.zipWith (fun f x => f x) gs v) else .error .runtime

/-- Export of a module (`to_static_op`). -/
def exportModule (mods : Nat → Module W B X) (tbl : List (Nat × List Bool × List Bool)) (m : Nat) : Except Err (Module W B X) :=
  match mods m with
  | .conv c =>
    match (masked c (masksOf tbl m)).toStatic with
    | .error e => .error e
    | .ok s => .ok (.conv s)
  | .chan fs =>
    match maskIndex (masksOf tbl m).2 fs with
    | .error e => .error e
    | .ok gs => .ok (.chan gs)

/-- Forward of an ordinary module (PyTorch). -/
def Module.forward [AddCommMonoid X] (corr : W → X → X) (bc : B → X) (v : List X) : Module W B X → Except Err (List X)
  | .conv c => c.staticForward corr bc v
  | .chan fs => if v.length = fs.length then .ok (List.zipWith (fun f x => f x) fs v) else .error .runtime

/-- The exported network: a module that cannot be exported stops the export. -/
def staticLayer [AddCommMonoid X] (corr : Nat → W → X → X) (bc : Nat → B → X) (mods : Nat → Module W B X)
    (tbl : List (Nat × List Bool × List Bool)) (m : Nat) (v : List X) : Except Err (List X) :=
  match exportModule mods tbl m with
  | .error e => .error e
  | .ok s => s.forward (corr m) (bc m) v

end Verif.PrunedNet
