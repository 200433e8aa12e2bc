/-
Model of the making of module graphs: parse_torch_graph
(/repo/mmrazor/structures/graph/pseudo_fx_graph.py), BaseGraph.copy_from
(/repo/mmrazor/structures/graph/base_graph.py) and
/repo/mmrazor/structures/graph/module_graph.py. The graphs themselves are those of
Graph.lean.
-/
import Verif.Model.Graph
import Verif.Model.Tracer

namespace Verif.ModuleGraph
open Verif Graph

variable {N V W : Type} [DecidableEq N] [DecidableEq V] [DecidableEq W]

/-- A node of a torch graph: name, contents and `all_input_nodes`. -/
structure Fx (N V : Type) where
  name : N
  val : V
  inputs : List N

/-- The loop over the inputs of a node (pseudo_fx_graph.py 103-104); both ends are
in the graph already, so that `add_node` finds them. -/
def linkInputs (b : N) (as : List N) (g : G N V) : G N V × Option Err :=
  forEach (fun g a => linkChecked g a b) as g

/-- `parse_torch_graph` (pseudo_fx_graph.py 88-105). -/
def parseTorch (l : List (Fx N V)) : G N V × Option Err :=
  andThen (forEach (fun g x => addOrFind g x.name x.val) l empty)
    (fun g => forEach (fun g x => linkInputs x.name x.inputs g) l g)

/-- `BaseGraph.copy_from` (base_graph.py 75-95) with a conversion of the contents. -/
def copyFrom (f : N → V → W) (g : G N V) : G N W × Option Err :=
  andThen (forEach (fun h (p : N × V) => addOrFind h p.1 (f p.1 p.2)) g.nodes empty)
    (fun h => forEach (fun h (p : N × V) => linkInputs p.1 (g.prev p.1) h) g.nodes h)

/-! ### Checks -/

/-- Input, output or anything else (module_graph.py 146-152). -/
inductive Role where
  | input | output | other
  deriving DecidableEq, Repr

/-- What `ModuleNode.check` raises. -/
inductive Defect where
  | assertion | noInput | noOutput
  deriving DecidableEq, Repr

/-- `ModuleNode.check` (module_graph.py 154-164). -/
def nodeCheck (r : Role) (prev next : List N) : Option Defect :=
  match r with
  | .input =>
    if prev ≠ [] then some .assertion
    else if next = [] then some .noOutput else none
  | .output =>
    if prev = [] then some .noInput
    else if next ≠ [] then some .assertion else none
  | .other =>
    if prev = [] then some .noInput
    else if next = [] then some .noOutput else none

/-- The names and contents of the nodes added by `check(fix=True)`. -/
structure Auto (N V : Type) where
  role : V → Role
  inName : N
  inVal : V
  outName : N
  outVal : V

/-- `_add_input_before` (module_graph.py 238-243). -/
def addInput (a : Auto N V) (g : G N V) (n : N) : G N V × Option Err :=
  andThen (addOrFind g a.inName a.inVal) (fun g => linkChecked g a.inName n)

/-- `_add_output_after` (module_graph.py 245-250). -/
def addOutput (a : Auto N V) (g : G N V) (n : N) : G N V × Option Err :=
  andThen (addOrFind g a.outName a.outVal) (fun g => linkChecked g n a.outName)

/-- The error raised by a defect. -/
def Defect.err : Defect → Err
  | .assertion => .assertion
  | _ => .runtime

/-- `_check` (module_graph.py 215-236); the first argument is the recursion limit. -/
def checkNode (a : Auto N V) (fix : Bool) : ℕ → (N × V) → G N V → G N V × Option Err
  | 0, _, g => (g, some .runtime)
  | k + 1, p, g =>
    match nodeCheck (a.role p.2) (g.prev p.1) (g.next p.1) with
    | none => (g, none)
    | some d =>
      if fix then
        match d with
        | .assertion => (g, some .assertion)
        | .noInput => andThen (addInput a g p.1) (checkNode a fix k p)
        | .noOutput => andThen (addOutput a g p.1) (checkNode a fix k p)
      else (g, some d.err)

/-- The nodes of the graph in the order of the traversal. -/
def inOrder (g : G N V) (order : List N) : List (N × V) :=
  order.filterMap (fun n => g.nodes.find? (fun p => decide (p.1 = n)))

/-- `check` (module_graph.py 210-213). -/
def check (a : Auto N V) (fix : Bool) (limit : ℕ) (g : G N V) : G N V × Option Err :=
  match topoTraverse g with
  | (order, none) => forEach (fun h p => checkNode a fix limit p h) (inOrder g order) g
  | (_, some e) => (g, some e)

/-! ### Paths of the backward tracer -/

/-- Names of the nodes: layers, and the concatenations and bind nodes made by the
converter (`cat_0`, …); they are taken to differ from the names of layers. -/
inductive Nm (K : Type) where
  | layer (n : K)
  | cat (j : ℕ)
  | bind (j : ℕ)
  deriving DecidableEq, Repr

/-- The converter: the graph and `cat_dict` (the position of an id is the number of
its node). The contents of a node are given by its name. -/
structure Conv (K : Type) where
  g : G (Nm K) Unit
  cats : List K

variable {K : Type} [DecidableEq K]

/-- `_add_or_find_cat_node` (module_graph.py 425-446); the ids are sorted already by the
tracer (parsers.py 121-125). -/
def catName (s : Conv K) (id : K) : Conv K × Nm K :=
  if id ∈ s.cats then (s, .cat (s.cats.idxOf id))
  else (⟨s.g, s.cats ++ [id]⟩, .cat s.cats.length)

/-- Add a node unless it is there. -/
def addNm (s : Conv K) (n : Nm K) : Conv K := { s with g := (addOrFind s.g n ()).1 }

/-- `_connect_nexts` (module_graph.py 462-465). -/
def toNexts (n : Nm K) (nexts : List (Nm K)) (s : Conv K) : Conv K :=
  { s with g := (forEach (fun g b => linkChecked g n b) nexts s.g).1 }

mutual

/-- `_parse_helper` of a node (module_graph.py 410-423). -/
def parseNode : Tracer.PNode K → List (Nm K) → Conv K → Conv K × Nm K
  | .layer _ n, nexts, s => (toNexts (.layer n) nexts (addNm s (.layer n)), .layer n)
  | .cat id subs, nexts, s =>
    let (s, c) := catName s id
    (parseSubs subs c (toNexts c nexts (addNm s c)), c)

/-- `_parse_helper` of a path (module_graph.py 403-407). -/
def parsePath : List (Tracer.PNode K) → List (Nm K) → Conv K → Conv K
  | [], _, s => s
  | p :: l, nexts, s =>
    let (s, c) := parseNode p nexts s
    parsePath l [c] s

/-- `_parse_helper` of a list of paths (module_graph.py 398-400). -/
def parsePaths : List (List (Tracer.PNode K)) → List (Nm K) → Conv K → Conv K
  | [], _, s => s
  | p :: l, nexts, s => parsePaths l nexts (parsePath p nexts s)

/-- The loop over the inputs of a concatenation (module_graph.py 416-417). -/
def parseSubs : List (List (List (Tracer.PNode K))) → Nm K → Conv K → Conv K
  | [], _, s => s
  | p :: l, c, s => parseSubs l c (parsePaths p [c] s)

end

/-- `_insert_node_before` (module_graph.py 291-297) for a bind node. -/
def insertBefore (g : G (Nm K) Unit) (n new : Nm K) : G (Nm K) Unit × Option Err :=
  andThen (forEach (fun g p => linkChecked g p new) (g.prev n) g) (fun g =>
    andThen (forEach (fun g p => unlinkChecked g p n) (g.prev new) g) (fun g =>
      linkChecked g new n))

/-- Whether a bind node is needed (module_graph.py 304-309). -/
def needsBind (g : G (Nm K) Unit) : Nm K → Bool
  | .layer n => decide (1 < (g.prev (.layer n)).length)
  | _ => false

/-- The second loop of `_insert_bind_nodes` (module_graph.py 310-312); `j` is the
number of bind nodes made so far. -/
def bindLoop : ℕ → List (Nm K) → G (Nm K) Unit → G (Nm K) Unit × Option Err
  | _, [], g => (g, none)
  | j, n :: l, g =>
    andThen (addOrFind g (.bind j) ()) (fun g =>
      andThen (insertBefore g n (.bind j)) (bindLoop (j + 1) l))

/-- `_insert_bind_nodes` (module_graph.py 299-312). -/
def insertBinds (g : G (Nm K) Unit) : G (Nm K) Unit × Option Err :=
  bindLoop 0 ((names g).filter (needsBind g)) g

/-- `PathToGraphConverter` (module_graph.py 370-387) before the renaming of the
placeholder nodes, which gives every node a new name of the same kind in topological
order (`_topo_rename`, 338-360) and raises when there is no such order. -/
def fromPaths (ps : List (Tracer.Path K)) : G (Nm K) Unit × Option Err :=
  andThen (insertBinds (parsePaths ps [] ⟨empty, []⟩).g) topoSort

end Verif.ModuleGraph
