import Verif.Py

/-!
Model of the deletion of fake-quantisers from a traced graph,
`/repo/mmrazor/models/task_modules/tracer/fx/graph_utils.py`.

A `torch.fx` graph is the list of its nodes in order.  Nodes are numbered, an
argument is a node, a container of nodes (which `recursive_find_erased_nodes`
does not enter) or something else.  Module attributes are addressed by paths.
-/
namespace Verif.FakeQuantDel

/-- `node.op`. -/
inductive Op where
  | placeholder
  | getAttr
  | callFunction
  | callMethod
  | callModule
  | output
deriving DecidableEq

/-- An argument of a node. -/
inductive Arg where
  | const
  | node (i : Nat)
  | nest (l : List (Option Nat))
deriving DecidableEq

/-- `torch.fx.Node`; `target` is a path of attribute names. -/
structure Node where
  id : Nat
  op : Op
  target : List Nat
  args : List Arg
  kwargs : List Arg
deriving DecidableEq

/-- A module: a `FakeQuantizeBase` or something else of a given type. -/
inductive Mod where
  | fakeQuant
  | other (ty : Nat)
deriving DecidableEq

/-- `GraphModule`: the graph and the modules. -/
structure GM where
  nodes : List Node
  mods : List (List Nat × Mod)
deriving DecidableEq

/-- `_get_attrs`, graph_utils.py 16-31. -/
def getMod (m : GM) (path : List Nat) : Option Mod :=
  (m.mods.find? fun p => p.1 == path).map (·.2)

/-- The test `node.op == 'call_module' and isinstance(..., FakeQuantizeBase)`. -/
def isFq (m : GM) (n : Node) : Bool :=
  n.op == .callModule && getMod m n.target == some .fakeQuant

/-- The node with a number, if it is still in the graph. -/
def node? (m : GM) (i : Nat) : Option Node := m.nodes.find? fun n => n.id == i

/-- `recursive_find_erased_nodes`, graph_utils.py 34-74.  The depth of the
recursion is bounded by the fuel. -/
def find (m : GM) : Nat → Nat → List Nat
  | 0, _ => []
  | f + 1, i =>
      match node? m i with
      | none => []
      | some n =>
          if isFq m n then [i]
          else (n.args ++ n.kwargs).flatMap fun a =>
            match a with
            | .node j => find m f j
            | _ => []

/-- Replace node `i` by the argument `a` in an argument (`map_arg`).  Inside a
container the replacement is a node or something else. -/
def substArg (i : Nat) (a : Arg) : Arg → Arg
  | .const => .const
  | .node j => if j = i then a else .node j
  | .nest l => .nest (l.map fun o =>
      if o = some i then (match a with | .node j => some j | _ => none) else o)

/-- `replace_all_uses_with` in one user. -/
def substNode (i : Nat) (a : Arg) (n : Node) : Node :=
  { n with args := n.args.map (substArg i a), kwargs := n.kwargs.map (substArg i a) }

/-- `to_erase.replace_all_uses_with(a); new_graph.erase_node(to_erase)`. -/
def eraseNode (i : Nat) (a : Arg) (m : GM) : GM :=
  { m with nodes := (m.nodes.filter fun n => n.id != i).map (substNode i a) }

/-- `delattr(prepared_model, target)`: only attributes of the root. -/
def delAttr (path : List Nat) (m : GM) : Except Err GM :=
  if path.length = 1 then .ok { m with mods := m.mods.filter fun p => p.1 != path }
  else .error .attribute

/-- The three statements that remove the node `n` with first argument `a`. -/
def remove (n : Node) (a : Arg) (m : GM) : Except Err GM :=
  delAttr n.target (eraseNode n.id a m)

/-- The body of the inner loop of `del_fakequant_before_op`, graph_utils.py
100-106.  A node that has been erased before still exists as an object, but its
module is gone: the assertion fails. -/
def eraseOne (m : GM) (i : Nat) : Except Err GM :=
  match node? m i with
  | none => .error .assertion
  | some n =>
      if isFq m n then
        match n.args with
        | [a] => remove n a m
        | _ => .error .assertion
      else .error .assertion

/-- One turn of the outer loop, graph_utils.py 96-106. -/
def beforeStep (pred : Node → Bool) (m : GM) (t : Nat) : Except Err GM :=
  match node? m t with
  | none => .ok m
  | some n =>
      if pred n then (find m (m.nodes.length + 1) t).foldlM eraseOne m else .ok m

/-- `del_fakequant_before_op` (77-111), `del_fakequant_before_method` (155-190)
and `del_fakequant_before_function` (234-269): they differ in the test `pred`
on the node.  Erasing an earlier node does not disturb the iteration. -/
def delBefore (pred : Node → Bool) (m : GM) : Except Err GM :=
  (m.nodes.map (·.id)).foldlM (beforeStep pred) m

/-- One turn of the second loop of `del_fakequant_after_op`, graph_utils.py
138-148. -/
def afterStep (targets : List Nat) (m : GM) (i : Nat) : Except Err GM :=
  match node? m i with
  | none => .ok m
  | some n =>
      if isFq m n then
        match n.args with
        | [.node j] => if j ∈ targets then remove n (.node j) m else .ok m
        | [_] => .ok m
        | _ => .error .assertion
      else .ok m

/-- `del_fakequant_after_op` (114-152), `_method` (193-231), `_function`
(272-310) and `_module` (352-389). -/
def delAfter (pred : Node → Bool) (m : GM) : Except Err GM :=
  (m.nodes.map (·.id)).foldlM (afterStep ((m.nodes.filter pred).map (·.id))) m

/-- The test of `del_fakequant_before_module`, graph_utils.py 332-334. -/
def isTargetMod (pats : List Nat) (m : GM) (n : Node) : Bool :=
  n.op == .callModule && (match getMod m n.target with
    | some (.other ty) => pats.contains ty
    | _ => false)

/-- One turn of the loop of `del_fakequant_before_module`, graph_utils.py
331-343. -/
def moduleStep (pats : List Nat) (m : GM) (t : Nat) : Except Err GM :=
  match node? m t with
  | none => .ok m
  | some n =>
      if isTargetMod pats m n then
        match n.args with
        | [] => .error .index
        | .node j :: _ =>
            match node? m j with
            | none => .error .key
            | some e =>
                if isFq m e then
                  match e.args with
                  | [] => .error .index
                  | a :: _ => remove e a m
                else .ok m
        | _ => .error .attribute
      else .ok m

/-- `del_fakequant_before_module`, graph_utils.py 313-349. -/
def delBeforeModule (pats : List Nat) (m : GM) : Except Err GM :=
  (m.nodes.map (·.id)).foldlM (moduleStep pats) m

/-- What a quantiser lists as redundant: the eight properties of `native_quantizer.py` 400-446, and with the same keys the
`extra_redundant_fakequants` of the configuration. -/
structure Redundant where
  modulePrev : List Nat := []
  moduleNext : List Nat := []
  functionPrev : List (List Nat) := []
  functionNext : List (List Nat) := []
  methodPrev : List (List Nat) := []
  methodNext : List (List Nat) := []
  opPrev : List Op := []
  opNext : List Op := []

/-- The test `node.op == op and node.target in patterns` of the functions for functions and methods. -/
def isTarget (o : Op) (pats : List (List Nat)) (n : Node) : Bool := n.op == o && pats.contains n.target

/-- The test `node.op in op_patterns`, graph_utils.py 96 and 137. -/
def isOp (pats : List Op) (n : Node) : Bool := pats.contains n.op

/-- `del_redundant_fakequant`, native_quantizer.py 330-398. -/
def delRedundant (q e : Redundant) (m : GM) : Except Err GM := do
  let m1 ← delBeforeModule (q.modulePrev ++ e.modulePrev) m
  let m2 ← delAfter (isTargetMod (q.moduleNext ++ e.moduleNext) m1) m1
  let m3 ← delBefore (isTarget .callFunction (q.functionPrev ++ e.functionPrev)) m2
  let m4 ← delAfter (isTarget .callFunction (q.functionNext ++ e.functionNext)) m3
  let m5 ← delBefore (isTarget .callMethod (q.methodPrev ++ e.methodPrev)) m4
  let m6 ← delAfter (isTarget .callMethod (q.methodNext ++ e.methodNext)) m5
  let m7 ← delBefore (isOp (q.opPrev ++ e.opPrev)) m6
  delAfter (isOp (q.opNext ++ e.opNext)) m7

/-- `OpenVINOQuantizer` 65-86 and `TensorRTQuantizer` 63-84: `ReLU6` is module type 1, `Identity` 2, `MaxPool2d` 3, and the method
`flatten` is target 40. -/
def backendRedundant : Redundant :=
  { modulePrev := [1, 2], moduleNext := [3], methodNext := [[40]], opPrev := [.output] }

end Verif.FakeQuantDel
