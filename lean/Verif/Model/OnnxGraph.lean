import Verif.Py
import Mathlib.Data.Rat.Init
import Mathlib.Data.List.Dedup
import Mathlib.Logic.Function.Basic

/-! Model of the edits of ONNX graphs before deployment, `mmrazor/models/quantizers/exporters/optim_utils.py`.
A graph is a list of nodes with named inputs and outputs. Attributes of nodes are part of the operator;
subgraphs inside of nodes are left out. -/

namespace Verif.Onnx
open Verif

/-- An array that is known at export time: shape and entries. -/
structure Data where
  shape : List ℕ
  vals : List ℚ
deriving DecidableEq

/-- Operators, with the attributes that the exporters read. `fake` stands for the four symbolic
fake-quantisers of base_quantize_exporter.py lines 18-23, with the attributes `quant_min` and `quant_max`
if there are any. -/
inductive Op where
  | constant (value : Option Data)
  | identity
  | pad
  | fake (perChannel learnable : Bool) (range : Option (ℤ × ℤ))
  | fakeQuantize (levels : ℤ)
  | quantizeLinear
  | dequantizeLinear
  | other (kind : String)
deriving DecidableEq

/-- `onnx.NodeProto`. -/
structure Node where
  name : String
  op : Op
  inputs : List String
  outputs : List String
deriving DecidableEq

/-- `onnx.GraphProto`. -/
structure Graph where
  nodes : List Node
  inits : List (String × Data)
  inputs : List String
  outputs : List String
deriving DecidableEq

/-- The names of the initializers. -/
def Graph.initNames (g : Graph) : List String := g.inits.map (·.1)

/-- `name in output2node`, optim_utils.py lines 50-57. -/
def Graph.produced (g : Graph) (x : String) : Bool := g.nodes.any fun n => n.outputs.contains x

/-- `name in input2node`, optim_utils.py lines 59-69. -/
def Graph.consumed (g : Graph) (x : String) : Bool := g.nodes.any fun n => n.inputs.contains x

/-- One node of `map_name_and_data`, optim_utils.py lines 24-33; later entries come first. -/
def dataStep (params : List (String × Data)) (n : Node) : List (String × Data) :=
  match n.op, n.inputs, n.outputs with
  | .identity, [x], y :: _ => match params.lookup x with
    | some d => (y, d) :: params
    | none => params
  | .constant (some d), _, y :: _ => (y, d) :: params
  | _, _, _ => params

/-- `map_name_and_data`, optim_utils.py lines 18-34. -/
def Graph.nameData (g : Graph) : List (String × Data) := g.nodes.foldl dataStep g.inits.reverse

/-- `graph.node.remove(node)`: the first equal message, ValueError without one. -/
def removeNode (nodes : List Node) (n : Node) : Except Err (List Node) :=
  if n ∈ nodes then .ok (nodes.erase n) else .error .value

/-- The places where a name is read, `map_input_and_node`, optim_utils.py lines 59-69: positions of the node
and of the input. -/
def readers (nodes : List Node) (x : String) : List (ℕ × ℕ) :=
  nodes.zipIdx.flatMap fun p => (p.1.inputs.zipIdx.filter (·.1 = x)).map fun q => (p.2, q.2)

/-- `next_node.input[idx] = name`. -/
def setInput (nodes : List Node) (at' : ℕ × ℕ) (x : String) : List Node :=
  nodes.modify at'.1 fun n => { n with inputs := n.inputs.set at'.2 x }

/-- One round of `remove_fake_pad_op`, optim_utils.py lines 86-94; `orig` are the nodes the mapping of
inputs was built from. -/
def padStep (orig : List Node) (data : List (String × Data)) (st : List Node × List ℕ) (i : ℕ) :
    Except Err (List Node × List ℕ) :=
  match st.1[i]? with
  | none => .ok st
  | some n => if n.op = .pad then
      match n.inputs, n.outputs with
      | x :: p :: _, y :: _ => match data.lookup p with
        | none => .error .key
        | some d => if d.vals.all (· = 0) then
            match readers orig y with
            | [] => .error .key
            | rs => .ok (rs.foldl (fun ns r => setInput ns r x) st.1, st.2 ++ [i])
          else .ok st
      | _, _ => .error .index
    else .ok st

/-- `remove_fake_pad_op`, optim_utils.py lines 83-97. -/
def removePads (g : Graph) : Except Err Graph := do
  let st ← (List.range g.nodes.length).foldlM (padStep g.nodes g.nameData) (g.nodes, [])
  let nodes ← (st.2.filterMap fun i => st.1[i]?).foldlM removeNode st.1
  .ok { g with nodes := nodes }

/-- `_is_standalone_node`, optim_utils.py lines 119-128. -/
def Graph.standalone (g : Graph) (n : Node) : Bool :=
  n.inputs.all (fun x => !g.produced x) && n.outputs.all fun y => !g.consumed y

/-- `find_redundant_initializers`, optim_utils.py lines 138-155: each unused name once, with the last of its
initializers. -/
def redundant (g : Graph) (inits : List (String × Data)) : List (String × Data) :=
  (((inits.map (·.1)).reverse.dedup.reverse).filter fun x => !g.consumed x).filterMap fun x =>
    (inits.reverse.lookup x).map fun d => (x, d)

/-- The key in `graph` of what `output_name2node` returns, optim_utils.py lines 186-191: graph inputs
override nodes, later nodes override earlier ones. -/
def producer (g : Graph) (x : String) : Option String :=
  if x ∈ g.inputs then some x else (g.nodes.reverse.find? fun n => n.outputs.contains x).map (·.name)

/-- The edges that one input of a node adds, optim_utils.py lines 205-209. -/
def edgeOf (g : Graph) (n : Node) (x : String) : Except Err (List (String × String)) :=
  if x ∈ g.initNames then .ok [] else
  match producer g x with
  | none => .error .key
  | some p => .ok [(p, n.name)]

/-- The loop that builds the edges, optim_utils.py lines 203-209. -/
def edges (g : Graph) : Except Err (List (String × String)) := do
  .ok (← (g.nodes.flatMap fun n => n.inputs.map fun x => (n, x)).mapM fun q => edgeOf g q.1 q.2).flatten

/-- One successor of the node that was taken from the stack, optim_utils.py lines 227-230. -/
def visit (st : List String × (String → ℤ)) (m : String) : List String × (String → ℤ) :=
  let d := st.2 m - 1
  (if d = 0 then m :: st.1 else st.1, Function.update st.2 m d)

/-- The loop over the stack, optim_utils.py lines 220-230; the top of the stack comes first. The number of
rounds is bounded by the number of names (`none` would be a run beyond it). -/
def kahn (E : List (String × String)) (inputs : List String) :
    ℕ → List String → (String → ℤ) → List String → Option (List String)
  | _, [], _, acc => some acc.reverse
  | 0, _ :: _, _, _ => none
  | fuel + 1, p :: stack, indeg, acc =>
    let st := ((E.filter (·.1 = p)).map (·.2)).foldl visit (stack, indeg)
    kahn E inputs fuel st.1 st.2 (if p ∈ inputs then acc else p :: acc)

/-- `name2node[name]`: the last node of that name. -/
def Graph.named (g : Graph) (x : String) : Option Node := g.nodes.reverse.find? fun n => n.name = x

/-- `topo_sort`, optim_utils.py lines 157-241. -/
def topoSort (g : Graph) : Except Err Graph := do
  let E ← edges g
  let indeg : String → ℤ := fun n => E.countP (·.2 = n)
  let roots := g.inputs ++ ((g.nodes.map (·.name)).reverse.dedup.reverse).filter fun n => indeg n = 0
  match kahn E g.inputs (g.inputs.length + g.nodes.length) roots.reverse indeg [] with
  | none => .error .assertion
  | some names =>
    let sorted := names.filterMap g.named
    if sorted.length ≠ g.nodes.length then .error .runtime else .ok { g with nodes := sorted }

/-- `optimize`, optim_utils.py lines 244-265: both searches use the mappings of the graph as it came. -/
def optimize (g : Graph) : Except Err Graph := do
  let nodes ← (g.nodes.filter g.standalone).foldlM removeNode g.nodes
  let inits := (redundant g g.inits).foldl List.erase g.inits
  topoSort { g with nodes := nodes, inits := inits }

end Verif.Onnx
