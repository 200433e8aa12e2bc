import Verif.Model.OnnxGraph
import Verif.Model.GptqQuantizer

/-! Model of the exporters of quantised ONNX models, `mmrazor/models/quantizers/exporters/`
base_quantize_exporter.py, openvino_quantize_exporter.py and tensorrt_quantize_exporter.py. Numbers are exact
rationals; writing the file is left out. -/

namespace Verif.Onnx
open Verif

/-- What `parse_qparams` returns. -/
structure QParams where
  tensor : String
  scale : Data
  zeroPoint : Data
  range : Option (Data × Data)
deriving DecidableEq

/-- `node.op_type in ALL_FAKEQUANTIZER`, base_quantize_exporter.py lines 18-23. -/
def isFake (n : Node) : Bool := match n.op with
  | .fake .. => true
  | _ => false

/-- `self.name2data[name]`. -/
def dataOf (data : List (String × Data)) (x : String) : Except Err Data := match data.lookup x with
  | some d => .ok d
  | none => .error .key

/-- Lines 96-106 of base_quantize_exporter.py: the last two inputs, else the attributes, else nothing. -/
def parseRange (data : List (String × Data)) (n : Node) : Except Err (Option (Data × Data)) :=
  match n.inputs.drop 3, n.inputs.reverse with
  | _ :: _, b :: a :: _ => do .ok (some (← dataOf data a, ← dataOf data b))
  | _, _ => match n.op with
    | .fake _ _ (some (lo, hi)) => .ok (some (⟨[], [(lo : ℚ)]⟩, ⟨[], [(hi : ℚ)]⟩))
    | _ => .ok none

/-- `parse_qparams`, base_quantize_exporter.py lines 91-106. -/
def parseQparams (data : List (String × Data)) (n : Node) : Except Err QParams :=
  match n.inputs with
  | x :: s :: z :: _ => do
    let s ← dataOf data s
    let z ← dataOf data z
    .ok ⟨x, s, z, ← parseRange data n⟩
  | _ => .error .value

/-- `int(array)`: arrays of one entry only; `int(None)` is refused, too. -/
def intOf (d : Data) : Except Err ℤ := match d.vals with
  | [a] => .ok (pyInt a)
  | _ => .error .type

/-- `output2node[name]`: the last node that writes the name. -/
def writer (nodes : List Node) (x : String) : Option Node := nodes.reverse.find? fun n => n.outputs.contains x

/-- `keys` of openvino_quantize_exporter.py line 43. -/
def ovKeys : List String := ["input_min", "input_max", "output_min", "output_max"]

/-- `_build_backend_node_from_symbolic`, openvino_quantize_exporter.py lines 25-52. -/
def ovNode (n : Node) (x : String) (range : Option (Data × Data)) : Except Err Node := match range with
  | none => .error .type
  | some (qmin, qmax) => do
    let hi ← intOf qmax
    let lo ← intOf qmin
    match n.outputs with
    | [] => .error .index
    | y :: _ => .ok ⟨n.name, .fakeQuantize (hi - lo + 1), x :: ovKeys.map (x ++ "_" ++ ·), [y]⟩

/-- The rank of the weight that the first reader of the node has as its second input, lines 102-114; `none`
when anything on the way fails. -/
def ovRank (nodes : List Node) (data : List (String × Data)) (n : Node) : Option ℕ := do
  let y ← n.outputs.head?
  let r ← (readers nodes y).head?
  let next ← nodes[r.1]?
  let fake ← writer nodes (← next.inputs[1]?)
  let tensor ← data.lookup (← fake.inputs.head?)
  some tensor.shape.length

/-- numpy's arithmetic on two flat arrays. -/
def bcast (f : ℚ → ℚ → ℚ) (a b : List ℚ) : Except Err (List ℚ) :=
  if a.length = b.length then .ok (List.zipWith f a b) else
  match a, b with
  | [x], _ => .ok (b.map fun y => f x y)
  | _, [y] => .ok (a.map fun x => f x y)
  | _, _ => .error .value

/-- `_build_backend_initializer`, openvino_quantize_exporter.py lines 54-88. A range of one number divides
zero by zero, which is zero here and not a number in numpy. -/
def ovInits (names : List String) (scale zp qmin qmax : Data) (rank : Option ℕ) : Except Err (List (String × Data)) :=
  match qmin.vals, qmax.vals with
  | [lo], [hi] => do
    let s := scale.vals.map fun a => |a|
    let z := zp.vals.map fun a => min (max (GptqQuantizer.rhe a : ℚ) lo) hi
    let input := s.map (· * (hi - lo))
    let high ← bcast (fun z r => (hi - z) * r / (hi - lo)) z input
    let low ← bcast (fun h r => h - r) high input
    let shape : List ℕ := if low.length = 1 then [1] else low.length :: List.replicate (rank.getD 0 - 1) 1
    .ok (names.zip [⟨shape, low⟩, ⟨shape, high⟩, ⟨shape, low⟩, ⟨shape, high⟩])
  | _, _ => .error .type

/-- One node of `build_backend_nodes_and_initializers`, openvino_quantize_exporter.py lines 95-120. -/
def ovBuild (nodes : List Node) (data : List (String × Data)) (n : Node) : Except Err (Node × List (String × Data)) := do
  let q ← parseQparams data n
  let new ← ovNode n q.tensor q.range
  match q.range with
  | none => .error .type
  | some (qmin, qmax) =>
    let inits ← ovInits (new.inputs.drop 1) q.scale q.zeroPoint qmin qmax (ovRank nodes data n)
    .ok (new, inits)

/-- `_insert_initializers_to_onnx`, openvino_quantize_exporter.py lines 123-131: the first of each name. -/
def insertOnce (new : List (String × Data)) : List (String × Data) :=
  (new.foldl (fun st p => if p.1 ∈ st.map (·.1) then st else st ++ [p]) [])

/-- `_get_constant_inputs`, base_quantize_exporter.py lines 116-125. -/
def constantInputs (nodes : List Node) (n : Node) : List Node :=
  n.inputs.filterMap fun x => (writer nodes x).filter fun c => match c.op with
    | .constant _ => true
    | _ => false

/-- The inner loop of `_collect_symbolic_constant_inputs`, base_quantize_exporter.py lines 134-139. The loop
also visits what it appends, whose names are collected by then. -/
def collectStep (nodes : List Node) (st : List String × List Node) (n : Node) : List String × List Node :=
  let cs := constantInputs nodes n
  cs.foldl (fun st c => if c.name ∈ st.1 then st else (c.name :: st.1, st.2 ++ [c])) (st.1, cs)

/-- `_collect_symbolic_constant_inputs`, base_quantize_exporter.py lines 127-140: the list is bound anew for
every node. -/
def collectConstants (nodes symbolic : List Node) : List Node := (symbolic.foldl (collectStep nodes) ([], [])).2

/-- `_is_standalone_constant_node`, base_quantize_exporter.py lines 152-158. -/
def unreadConstant (nodes : List Node) (c : Node) : Bool :=
  nodes.all fun n => n.inputs.all fun x => some x ≠ c.outputs.head?

/-- `_remove_symbolic_related_from_onnx`, base_quantize_exporter.py lines 142-162. -/
def removeSymbolic (nodes symbolic constants : List Node) : Except Err (List Node) := do
  let nodes ← symbolic.foldlM removeNode nodes
  constants.foldlM (fun ns c => if unreadConstant ns c then removeNode ns c else .ok ns) nodes

/-- The constructor, base_quantize_exporter.py lines 52-68, and `export`, openvino_quantize_exporter.py lines
133-159. The mapping of names to arrays is that of the graph as it came. -/
def exportOpenVino (g : Graph) : Except Err Graph := do
  let g1 ← removePads g
  let symbolic := g1.nodes.filter isFake
  let constants := collectConstants g1.nodes symbolic
  let built ← symbolic.mapM (ovBuild g1.nodes g.nameData)
  let inits := g1.inits ++ insertOnce (built.flatMap (·.2))
  let nodes ← removeSymbolic g1.nodes symbolic constants
  optimize { g1 with nodes := nodes ++ built.map (·.1), inits := inits }

/-- `_build_backend_node_from_symbolic`, tensorrt_quantize_exporter.py lines 18-26. -/
def trtNodes (n : Node) : List Node :=
  [⟨n.name ++ "_quantized", .quantizeLinear, n.inputs.take 3, [n.name ++ "_quantized_out"]⟩,
    ⟨n.name ++ "_dequantized", .dequantizeLinear, (n.name ++ "_quantized_out") :: (n.inputs.take 3).drop 1, n.outputs⟩]

/-- One node of `build_backend_nodes`, tensorrt_quantize_exporter.py lines 30-39. -/
def trtBuild (data : List (String × Data)) (n : Node) : Except Err (List Node) := do
  let q ← parseQparams data n
  match q.range with
  | none => .error .type
  | some (qmin, qmax) => match qmin.vals, qmax.vals with
    | [lo], [hi] =>
      if ¬ (hi - lo = 255 ∨ hi - lo = 254) then .error .assertion
      else if q.zeroPoint.vals.any (· ≠ 0) then .error .assertion
      else .ok (trtNodes n)
    | _, _ => .error .value

/-- The constructor and `export`, tensorrt_quantize_exporter.py lines 42-49. -/
def exportTensorRT (g : Graph) : Except Err Graph := do
  let g1 ← removePads g
  let symbolic := g1.nodes.filter isFake
  let built ← symbolic.mapM (trtBuild g.nameData)
  let nodes ← symbolic.foldlM removeNode g1.nodes
  optimize { g1 with nodes := nodes ++ built.flatten }

end Verif.Onnx
