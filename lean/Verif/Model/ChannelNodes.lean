import Verif.Py
import Verif.Model.ChannelFlow
import Verif.Model.ChannelGraph
import Mathlib.Data.Finset.Dedup

/-! Model of the nodes of the channel graph, `mmrazor/structures/graph/channel_nodes.py`, of the pass of channel tensors through the
graph and of the search units read off afterwards, `mmrazor/structures/graph/channel_graph.py`.

Simplifications. A channel is named by the tensor it was made for and its index there (`owing_tensor`, `index_in_tensoor`); tensors
are numbered in the order in which they are made. The disjoint sets are kept as a table from channels to representatives; that the
linked trees of channel_flow.py compute exactly these sets is property C22. The nodes come in topological order (property C20) and
name their predecessors by position. The hash of a frozen set of tensors is the set itself. An exception raised in a node is wrapped
into a plain `Exception` by `ChannelNode.forward` (lines 79-82); the model keeps the kind of the inner one. -/

namespace Verif.ChannelNodes
open Verif

/-- A channel: the tensor it was made for, and the index in it (channel_flow.py lines 16-30). -/
abbrev Elem := Nat × Nat

/-- A channel tensor: its list of channels (channel_flow.py lines 129-135). -/
abbrev Tensor := List Elem

/-- The sizes of the tensors made so far, and the ties between channels in the order in which they were made. -/
structure S where
  made : List Nat
  ties : List (Elem × Elem)
  deriving DecidableEq

/-- The channels of tensor number `id` with `n` channels, channel_flow.py line 135. -/
def elemsOf (id n : Nat) : Tensor := (List.range n).map (fun i => (id, i))

/-- `ChannelTensor(n)`, channel_flow.py lines 129-135. -/
def fresh (n : Nat) (s : S) : Tensor × S := (elemsOf s.made.length n, ⟨s.made ++ [n], s.ties⟩)

/-- Ties one after another (`ChannelElem.union`, channel_flow.py lines 42-44). -/
def tie (ps : List (Elem × Elem)) (s : S) : S := ⟨s.made, s.ties ++ ps⟩

/-- `ChannelTensor.union_two`, channel_flow.py lines 143-148. -/
def unionT (t u : Tensor) (s : S) : Except Err S :=
  if t.length = u.length then .ok (tie (t.zip u) s) else .error .assertion

/-- The pairs tied by `expand`, channel_flow.py lines 162-164. -/
def expandPairs (t : Tensor) (r id : Nat) : List (Elem × Elem) :=
  t.zipIdx.flatMap (fun xi => (List.range r).map (fun j => (xi.1, (id, xi.2 * r + j))))

/-- `ChannelTensor.expand`, channel_flow.py lines 158-165. -/
def expandT (t : Tensor) (r : Nat) (s : S) : Tensor × S :=
  ((fresh (r * t.length) s).1, tie (expandPairs t r s.made.length) (fresh (r * t.length) s).2)

/-- Lines 532-533: the slices of the tensor, one after another, are tied to the group tensor. -/
def groupLoop (t g : Tensor) (c : Nat) : List Nat → S → Except Err S
  | [], s => .ok s
  | i :: rest, s =>
    match unionT ((t.drop (i * c)).take c) g s with
    | .error e => .error e
    | .ok s' => groupLoop t g c rest s'

/-- `group_union` with the group tensor `g`, lines 526-533. -/
def groupUnion (t : Tensor) (groups : Nat) (g : Tensor) (s : S) : Except Err S :=
  if groups = 0 then .error .zeroDivision
  else if groups * g.length = t.length then groupLoop t g (t.length / groups) (List.range groups) s
  else .error .assertion

/-- `group_union` without a group tensor: one is made, lines 528-530. -/
def groupUnionNew (t : Tensor) (groups : Nat) (s : S) : Except Err S :=
  if groups = 0 then .error .zeroDivision
  else groupUnion t groups (fresh (t.length / groups) s).1 (fresh (t.length / groups) s).2

/-- The kinds of nodes. `mix out` is an ordinary convolution or a linear layer (lines 195-206, 348-350, 382); `passUnion` a batch norm, a
depthwise convolution or an unknown operation with one input (lines 153-172, 351-353, 404-421), for which the numbers of input and
output channels always agree; `pass` an activation or a pooling (lines 178-189); `group` a grouped convolution (lines 354-355,
359-368); `groupNorm` lines 427-449; `bind`, `cat`, `expand`, `input` and `stop` lines 212-320. -/
inductive Kind where
  | input (n : Nat)
  | mix (out : Nat)
  | passUnion
  | pass
  | bind
  | cat
  | expand (ratio : Nat)
  | stop
  | group (groups out : Nat)
  | groupNorm (groups channels : Nat)
  deriving DecidableEq

/-- What a node remembers: `in_channel_tensor`, `out_channel_tensor` and `return_tensor`. -/
structure Rec where
  inp : Tensor
  out : Tensor
  ret : Tensor
  deriving DecidableEq

/-- `channel_tensors[0].union(tensor)` for the others, lines 220-221. -/
def bindLoop (t : Tensor) : List Tensor → S → Except Err S
  | [], s => .ok s
  | u :: rest, s =>
    match unionT t u s with
    | .error e => .error e
    | .ok s' => bindLoop t rest s'

/-- `channel.union(tensor_end.expand(len(channel)))` for all inputs, lines 312-313. -/
def endLoop (e : Tensor) : List Tensor → S → Except Err S
  | [], s => .ok s
  | u :: rest, s =>
    match unionT u (expandT e u.length s).1 (expandT e u.length s).2 with
    | .error er => .error er
    | .ok s' => endLoop e rest s'

/-- The single input of a node that asserts that there is one. -/
def single : List Tensor → Except Err Tensor
  | [t] => .ok t
  | _ => .error .assertion

/-- `tensor` as its own input, output and result. -/
def same (t : Tensor) : Rec := ⟨t, t, t⟩

/-- `channel_forward` of a grouped convolution, lines 359-368. -/
def groupForward (t : Tensor) (groups out : Nat) (s : S) : Except Err (Rec × S) :=
  match groupUnionNew t groups s with
  | .error e => .error e
  | .ok s1 =>
    match groupUnionNew (fresh out s1).1 groups (fresh out s1).2 with
    | .error e => .error e
    | .ok s2 => .ok (⟨t, (fresh out s1).1, (fresh out s1).1⟩, s2)

/-- `channel_forward` of a group norm, lines 445-449; the group tensor has `channels // groups` channels. -/
def groupNormForward (t : Tensor) (groups channels : Nat) (s : S) : Except Err (Rec × S) :=
  if groups = 0 then .error .zeroDivision
  else
    match groupUnion t groups (fresh (channels / groups) s).1 (fresh (channels / groups) s).2 with
    | .error e => .error e
    | .ok s1 => .ok (same t, s1)

/-- `channel_forward` of a node on the tensors of its predecessors. An ordinary convolution without input raises
`NotImplementedError` (line 205), one with several an `AssertionError` (line 200); a node with a union takes the first tensor and
ignores the others (line 163). The expansion by zero is refused by line 271. -/
def forwardNode (k : Kind) (ins : List Tensor) (s : S) : Except Err (Rec × S) :=
  match k with
  | .input n => .ok (same (fresh n s).1, (fresh n s).2)
  | .mix out =>
    match ins with
    | [] => .error .notImplemented
    | [t] => .ok (⟨t, (fresh out s).1, (fresh out s).1⟩, (fresh out s).2)
    | _ => .error .assertion
  | .passUnion =>
    match ins with
    | [] => .error .index
    | t :: _ => .ok (same t, s)
  | .pass =>
    match single ins with
    | .error e => .error e
    | .ok t => .ok (⟨(fresh 1 s).1, (fresh 1 (fresh 1 s).2).1, t⟩, (fresh 1 (fresh 1 s).2).2)
  | .bind =>
    match ins with
    | [] => .error .assertion
    | t :: rest =>
      match bindLoop t rest s with
      | .error e => .error e
      | .ok s' => .ok (same t, s')
  | .cat => .ok (same ins.flatten, s)
  | .expand r =>
    match single ins with
    | .error e => .error e
    | .ok t =>
      if r = 0 then .error .assertion
      else .ok (⟨t, (expandT t r s).1, (expandT t r s).1⟩, (expandT t r s).2)
  | .stop =>
    match endLoop (fresh 1 s).1 ins (fresh 1 s).2 with
    | .error e => .error e
    | .ok s' => .ok (same (fresh 1 s).1, s')
  | .group groups out =>
    match single ins with
    | .error e => .error e
    | .ok t => groupForward t groups out s
  | .groupNorm groups channels =>
    match ins with
    | [] => .error .index
    | t :: _ => groupNormForward t groups channels s

/-- A node: its name in the configuration (`module_name` or `val`, channel_graph.py line 77), its kind, the positions of its
predecessors, and the module behind it if that has parameters. -/
structure Node where
  name : String
  kind : Kind
  prev : List Nat
  module : Option Nat

/-- The results of the predecessors, channel_nodes.py lines 74-80. -/
def inputsOf (done : List Rec) : List Nat → Except Err (List Tensor)
  | [] => .ok []
  | i :: rest =>
    match done[i]?, inputsOf done rest with
    | some r, .ok ts => .ok (r.ret :: ts)
    | _, _ => .error .attribute

/-- `node.forward`, channel_graph.py lines 118-122: a node without predecessors is given a new tensor with the channels of the
network's input. -/
def step (inputs : Nat) (n : Node) (done : List Rec) (s : S) : Except Err (Rec × S) :=
  if n.prev = [] then forwardNode n.kind [(fresh inputs s).1] (fresh inputs s).2
  else
    match inputsOf done n.prev with
    | .error e => .error e
    | .ok ts => forwardNode n.kind ts s

/-- The loop over the nodes, channel_graph.py lines 116-122. -/
def forwardAll (inputs : Nat) : List Node → List Rec → S → Except Err (List Rec × S)
  | [], done, s => .ok (done, s)
  | n :: rest, done, s =>
    match step inputs n done s with
    | .error e => .error e
    | .ok (r, s') => forwardAll inputs rest (done ++ [r]) s'

/-- Lines 174-176: the later nodes with the module of the first are tied to it. -/
def mergeInto (m : Nat) (r : Rec) : List (Node × Rec) → S → Except Err S
  | [], s => .ok s
  | (n, q) :: rest, s =>
    if n.module = some m then
      match unionT r.inp q.inp s with
      | .error e => .error e
      | .ok s1 =>
        match unionT r.out q.out s1 with
        | .error e => .error e
        | .ok s2 => mergeInto m r rest s2
    else mergeInto m r rest s

/-- `_merge_same_module`, lines 158-176; `seen` are the modules already dealt with. -/
def merge (seen : List Nat) : List (Node × Rec) → S → Except Err S
  | [], s => .ok s
  | (n, r) :: rest, s =>
    match n.module with
    | none => merge seen rest s
    | some m =>
      if m ∈ seen then merge seen rest s
      else
        match mergeInto m r rest s with
        | .error e => .error e
        | .ok s' => merge (m :: seen) rest s'

/-- `ChannelGraph.forward`, lines 112-123. -/
def forward (inputs : Nat) (nodes : List Node) : Except Err (List Rec × S) :=
  match forwardAll inputs nodes [] ⟨[], []⟩ with
  | .error e => .error e
  | .ok (recs, s) =>
    match merge [] (nodes.zip recs) s with
    | .error e => .error e
    | .ok s' => .ok (recs, s')

/-- The representative of every channel (`ChannelElem.root`, channel_flow.py lines 91-100). -/
abbrev Table := List (Elem × Elem)

/-- `ChannelElem.root`, channel_flow.py lines 91-100. -/
def Table.rep (l : Table) (x : Elem) : Elem := (l.lookup x).getD x

/-- `ChannelElem.union_two`, channel_flow.py lines 34-40: the root of the second becomes a child of the root of the first. -/
def Table.union (l : Table) (a b : Elem) : Table :=
  if l.rep a = l.rep b then l else l.map (fun p => if p.2 = l.rep b then (p.1, l.rep a) else p)

/-- All ties. -/
def Table.unions : List (Elem × Elem) → Table → Table
  | [], l => l
  | (a, b) :: rest, l => Table.unions rest (l.union a b)

/-- Every channel by itself. -/
def singles (made : List Nat) : Table :=
  made.zipIdx.flatMap (fun p => (elemsOf p.2 p.1).map (fun x => (x, x)))

/-- The sets of channels at the end. -/
def S.table (s : S) : Table := Table.unions s.ties (singles s.made)

/-- `owing_elem_set`, channel_flow.py lines 48-52 and 102-109. -/
def members (l : Table) (x : Elem) : List Elem := (l.filter (fun p => decide (p.2 = l.rep x))).map Prod.fst

/-- `elem_set_hash`, channel_flow.py lines 59-72: the tensors of the channels in the set. -/
def hashOf (l : Table) (x : Elem) : Finset Nat := ((members l x).map Prod.fst).toFinset

/-- `min_elem_set_index`, channel_flow.py lines 74-87. -/
def minIndex (l : Table) (x : Elem) : Nat := (members l x).foldl (fun m y => min m y.2) (2 ^ 32)

/-- `elems_hash_dict` of a tensor, channel_flow.py lines 169-190. -/
def ranges (l : Table) (t : Tensor) : Except Err (List ((Nat × Nat) × Finset Nat)) :=
  ChannelFlow.hashRanges (t.map (fun x => (hashOf l x, minIndex l x)))

/-- The ranges of all nodes, channel_graph.py lines 106-108. -/
def nodeRanges (l : Table) : List (Node × Rec) → Except Err (List (ChannelGraph.NodeRanges String (Finset Nat)))
  | [] => .ok []
  | (n, r) :: rest =>
    match ranges l r.out, ranges l r.inp, nodeRanges l rest with
    | .ok o, .ok i, .ok l => .ok (⟨n.name, o, i⟩ :: l)
    | _, _, _ => .error .index

/-- `generate_units_config`, channel_graph.py lines 33-110, after `forward`. -/
def unitsOf (nodes : List Node) (recs : List Rec) (l : Table) :
    Except Err (List (Finset Nat × ChannelGraph.Unit' String × Nat)) :=
  match nodeRanges l (nodes.zip recs) with
  | .error e => .error e
  | .ok l => .ok (ChannelGraph.unitsConfig l)

/-- The part of a layer's mask that a unit of `n` channels with the mask `m` gives to a range of `len` channels:
`_register_mutable_channel`, mutable_channel_unit.py lines 273-289, with the expanded masks of simple_mutable_channel.py lines 47-57.
A range that is not a multiple of the unit gets a fractional factor (line 282), which is left out of the model. -/
def rangeMask (n : Nat) (m : List Bool) (len : Nat) : Except Err (List Bool) :=
  if len < n then .error .notImplemented
  else if n = 0 then .error .zeroDivision
  else if len % n = 0 then .ok (m.flatMap (List.replicate (len / n)))
  else .error .type

/-- The mask of a tensor of a layer, read from its container: the masks of its ranges in order (mutable_channel_container.py lines
37-48). -/
def readMask (num : Finset Nat → Nat) (masks : Finset Nat → List Bool) :
    List ((Nat × Nat) × Finset Nat) → Except Err (List Bool)
  | [] => .ok []
  | (r, h) :: rest =>
    match rangeMask (num h) (masks h) (r.2 - r.1), readMask num masks rest with
    | .ok a, .ok b => .ok (a ++ b)
    | .error e, _ => .error e
    | _, .error e => .error e

/-- The number of channels of a unit of a configuration. -/
def numOf (cfg : List (Finset Nat × ChannelGraph.Unit' String × Nat)) (h : Finset Nat) : Nat :=
  match cfg.lookup h with
  | some p => p.2
  | none => 0

/-- The mask of the tensor `t` with the sets `l`, for masks of the units of the configuration. -/
def maskOf (cfg : List (Finset Nat × ChannelGraph.Unit' String × Nat)) (masks : Finset Nat → List Bool) (l : Table) (t : Tensor) :
    Except Err (List Bool) :=
  match ranges l t with
  | .error e => .error e
  | .ok rs => readMask (numOf cfg) masks rs

/-! ### Remembered hashes -/

/-- `elem_set_hash` for the channels of the nodes one after another, channel_flow.py lines 59-72: a remembered hash is used; otherwise
no member of the set may have one, and all get it. -/
def hashPass (l : Table) : List Elem → List Elem → Except Err (List Elem)
  | [], cache => .ok cache
  | x :: rest, cache =>
    if x ∈ cache then hashPass l rest cache
    else if (members l x).any (fun y => decide (y ∈ cache)) then .error .assertion
    else hashPass l rest (cache ++ members l x)

/-- `_reset_channel_elem_cache` and the pass over all nodes, channel_graph.py lines 105-108 and 238-245. Only the channels of the
tensors of nodes are reset. -/
def generate (l : Table) (recs : List Rec) (cache : List Elem) : Except Err (List Elem) :=
  hashPass l (recs.flatMap (fun r => r.out ++ r.inp))
    (cache.filter (fun x => decide (x ∉ recs.flatMap (fun r => r.out ++ r.inp))))

end Verif.ChannelNodes
