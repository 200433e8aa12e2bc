import Verif.Py

/-! Model of `_insert_expand_node` and `generate_units_config` in
`mmrazor/structures/graph/channel_graph.py`.

A node is represented by how it computes its number of input channels and by its
predecessors with their numbers of output channels. Inserting a node in front of it
does not change what its predecessors put out (the graph has no cycles), so the
nodes are treated one at a time; `made` lists the expansion nodes so far. -/

namespace Verif.ChannelGraph
open Verif

/-- Names of the nodes given and of the nodes made here (`expand_{i}`, line 194). -/
inductive Name where
  | orig (n : Nat)
  | expand (k : Nat)
  deriving DecidableEq

/-- A predecessor and its `out_channels`. -/
structure Pre where
  name : Name
  out : Nat
  deriving DecidableEq

/-- `in_channels` (channel_nodes.py lines 93-100 and 128-138): a module knows its own
number, any other node takes that of its first predecessor (3 if it has none). -/
inductive Kind where
  | module (n : Nat)
  | first

/-- `in_channels` from the current predecessors. -/
def inChannels : Kind → List Pre → Nat
  | .module n, _ => n
  | .first, [] => 3
  | .first, p :: _ => p.out

/-- The predecessors of the node and, for every expansion node made, the node it was
put behind and its ratio. -/
structure S where
  prev : List Pre
  made : List (Name × Nat)
  deriving DecidableEq

/-- The body of the loop over `prev_nodes`, lines 186-205: `connect(new_node, node)`
appends, `disconnect(pre_node, node)` removes. -/
def body (k : Kind) (s : S) (p : Pre) : Except Err S :=
  let n := inChannels k s.prev
  if p.out < n then
    if p.out = 0 then .error .zeroDivision
    else if n % p.out = 0 then
      .ok ⟨(s.prev ++ [Pre.mk (.expand s.made.length) (p.out * (n / p.out))]).erase p,
        s.made ++ [(p.name, n / p.out)]⟩
    else .ok s
  else .ok s

/-- `for pre_node in node.prev_nodes`, line 184: Python walks the list by position while
the body changes it. The first argument bounds the number of rounds. -/
def loop (k : Kind) : Nat → Nat → S → Except Err S
  | 0, _, s => .ok s
  | fuel + 1, i, s =>
    match s.prev[i]? with
    | none => .ok s
    | some p =>
      match body k s p with
      | .error e => .error e
      | .ok s' => loop k fuel (i + 1) s'

/-- `check_channel`, channel_nodes.py lines 109-112. -/
def checkChannel (k : Kind) (prev : List Pre) : Bool :=
  prev.all (fun p => decide (p.out = inChannels k prev))

/-- `_insert_expand_node` for one node, lines 180-205. The loop runs at most once per
predecessor: the body never changes their number. -/
def insertExpand (k : Kind) (s : S) : Except Err S :=
  if checkChannel k s.prev then .ok s else loop k s.prev.length 0 s

/-! ### Unit configurations -/

/-- An entry of `input_related` or `output_related`, lines 76-81. -/
structure Chan (N : Type) where
  name : N
  start : Nat
  stop : Nat
  deriving DecidableEq

/-- The configuration of one unit. -/
structure Unit' (N : Type) where
  input : List (Chan N)
  output : List (Chan N)

/-- Append if absent, lines 87-88. -/
def addNew {A : Type} [DecidableEq A] (l : List A) (x : A) : List A := if x ∈ l then l else l ++ [x]

/-- Lines 82-88: the unit of the hash is made when missing, then the entry is added. -/
def addEntry {N H : Type} [DecidableEq N] [DecidableEq H] (isOut : Bool) (h : H) (c : Chan N) :
    List (H × Unit' N) → List (H × Unit' N)
  | [] => [(h, if isOut then ⟨[], [c]⟩ else ⟨[c], []⟩)]
  | (h', u) :: rest =>
    if h' = h then
      (h', if isOut then ⟨u.input, addNew u.output c⟩ else ⟨addNew u.input c, u.output⟩) :: rest
    else (h', u) :: addEntry isOut h c rest

/-- `process_tensor`, lines 67-88: the ranges of the tensor of one node. -/
def processTensor {N H : Type} [DecidableEq N] [DecidableEq H] (name : N) (isOut : Bool) :
    List ((Nat × Nat) × H) → List (H × Unit' N) → List (H × Unit' N)
  | [], d => d
  | (r, h) :: rest, d => processTensor name isOut rest (addEntry isOut h ⟨name, r.1, r.2⟩ d)

/-- A node as far as the configuration is concerned: its name and the ranges of its
output and input tensors. -/
structure NodeRanges (N H : Type) where
  name : N
  out : List ((Nat × Nat) × H)
  inp : List ((Nat × Nat) × H)

/-- Lines 106-110: all nodes in topological order. -/
def collect {N H : Type} [DecidableEq N] [DecidableEq H] :
    List (NodeRanges N H) → List (H × Unit' N) → List (H × Unit' N)
  | [], d => d
  | n :: rest, d => collect rest (processTensor n.name false n.inp (processTensor n.name true n.out d))

/-- `min_num_channels`, lines 92-97, starting from 2^32. -/
def minNum {N : Type} (cs : List (Chan N)) : Nat := cs.foldl (fun m c => min m (c.stop - c.start)) (2 ^ 32)

/-- `generate_units_config`, lines 32-111. -/
def unitsConfig {N H : Type} [DecidableEq N] [DecidableEq H] (ns : List (NodeRanges N H)) :
    List (H × Unit' N × Nat) :=
  (collect ns []).map (fun p => (p.1, p.2, minNum (p.2.input ++ p.2.output)))

end Verif.ChannelGraph
