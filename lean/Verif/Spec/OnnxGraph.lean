import Verif.Model.OnnxGraph
import Mathlib.Data.List.Nodup
import Mathlib.Data.List.Perm.Subperm
import Mathlib.Tactic

/-! Definitions used in the statements of `Verif/Props/OnnxGraph.lean`. -/

namespace Verif.Onnx
open Verif

/-- The meaning of arrays and operators: any type of values, any functions, which may fail. -/
structure Interp (V : Type) where
  lit : Data → V
  run : Op → List V → Option (List V)

/-- New values for some names. -/
def assign {V : Type} (env : String → Option V) (names : List String) (vals : List V) : String → Option V :=
  fun y => ((names.zip vals).lookup y).or (env y)

/-- A node reads its inputs and writes its outputs. -/
def evalNode {V : Type} (I : Interp V) (env : String → Option V) (n : Node) : Option (String → Option V) := do
  let args ← n.inputs.mapM env
  let outs ← I.run n.op args
  if outs.length = n.outputs.length then some (assign env n.outputs outs) else none

/-- Nodes are executed in their order. -/
def evalAll {V : Type} (I : Interp V) (env : String → Option V) (nodes : List Node) : Option (String → Option V) :=
  nodes.foldlM (evalNode I) env

/-- What is known before any node is executed. -/
def Graph.start {V : Type} (I : Interp V) (g : Graph) (ins : String → Option V) : String → Option V :=
  fun x => if x ∈ g.inputs then ins x else (g.inits.lookup x).map I.lit

/-- The values of the outputs of a graph, if its execution succeeds. -/
def Graph.eval {V : Type} (I : Interp V) (g : Graph) (ins : String → Option V) : Option (List V) := do
  g.outputs.mapM (← evalAll I (g.start I ins) g.nodes)

/-- Every node comes after the nodes whose outputs it reads. -/
def Runs (avail : List String) : List Node → Prop
  | [] => True
  | n :: r => (∀ x ∈ n.inputs, x ∈ avail) ∧ Runs (avail ++ n.outputs) r

instance Runs.decidable : ∀ (avail : List String) (l : List Node), Decidable (Runs avail l)
  | _, [] => .isTrue trivial
  | avail, n :: r =>
    have := Runs.decidable (avail ++ n.outputs) r
    (inferInstance : Decidable ((∀ x ∈ n.inputs, x ∈ avail) ∧ Runs (avail ++ n.outputs) r))

/-- A well-formed graph: nodes and graph inputs have different names, every name is written once, and every
name that is read is a graph input, an initializer or an output of some node. -/
structure Graph.Valid (g : Graph) : Prop where
  names : (g.inputs ++ g.nodes.map (·.name)).Nodup
  arrays : g.initNames.Nodup
  once : (g.nodes.flatMap (·.outputs)).Nodup
  fresh : ∀ n ∈ g.nodes, ∀ y ∈ n.outputs, y ∉ g.inputs ∧ y ∉ g.initNames
  closed : ∀ n ∈ g.nodes, ∀ x ∈ n.inputs, x ∈ g.inputs ∨ x ∈ g.initNames ∨ ∃ m ∈ g.nodes, x ∈ m.outputs

/-- The graph has no cycle: its nodes can be put into an order of execution. -/
def Graph.Acyclic (g : Graph) : Prop := ∃ l : List Node, l.Perm g.nodes ∧ Runs (g.inputs ++ g.initNames) l

/-- The outputs of a graph: those of the execution in some order (all of them agree, `C70_meaning`). -/
def Graph.Computes {V : Type} (I : Interp V) (g : Graph) (ins : String → Option V) (vals : List V) : Prop :=
  ∃ l : List Node, l.Perm g.nodes ∧ Runs (g.inputs ++ g.initNames) l ∧
    ({ g with nodes := l } : Graph).eval I ins = some vals

/-- A node that is connected with no other node. -/
def Graph.Isolated (g : Graph) (n : Node) : Prop :=
  (∀ x ∈ n.inputs, ∀ m ∈ g.nodes, x ∉ m.outputs) ∧ ∀ y ∈ n.outputs, ∀ m ∈ g.nodes, y ∉ m.inputs

/-- Some node reads the name. -/
def Graph.Read (g : Graph) (x : String) : Prop := ∃ m ∈ g.nodes, x ∈ m.inputs

/-- The operators that the edits rely on: constants and copies are what they say, padding by nothing does
nothing. -/
structure Interp.Standard {V : Type} (I : Interp V) : Prop where
  constant : ∀ d args, I.run (.constant (some d)) args = some [I.lit d]
  identity : ∀ v, I.run .identity [v] = some [v]
  pad : ∀ v d rest, (∀ a ∈ d.vals, a = 0) → I.run .pad (v :: I.lit d :: rest) = some [v]

/-- The arrays that are known before the graph is run: initializers, constants and copies of these. -/
inductive Graph.Known (g : Graph) : String → Data → Prop
  | array {x d} : (x, d) ∈ g.inits → g.Known x d
  | constant {n y r d} : n ∈ g.nodes → n.op = .constant (some d) → n.outputs = y :: r → g.Known y d
  | copy {n x y r d} : n ∈ g.nodes → n.op = .identity → n.inputs = [x] → n.outputs = y :: r → g.Known x d → g.Known y d

/-- A padding node whose widths `d` are known at export time (and are not themselves padded). -/
structure Graph.PadOf (g : Graph) (n : Node) (x y : String) (d : Data) : Prop where
  op : n.op = .pad
  outputs : n.outputs = [y]
  inputs : ∃ p rest, n.inputs = x :: p :: rest ∧ g.Known p d ∧
    ∀ m ∈ g.nodes, m.op = .pad → p ∉ m.outputs

/-- A node that pads by nothing. -/
def Graph.ZeroPad (g : Graph) (n : Node) : Prop := ∃ x y d, g.PadOf n x y d ∧ ∀ a ∈ d.vals, a = 0

/-- A padding that can be dealt with: its widths are known, and its output is read when they are zero. -/
def Graph.PadFine (g : Graph) (n : Node) : Prop :=
  ∃ x y d, g.PadOf n x y d ∧ ((∀ a ∈ d.vals, a = 0) → g.Read y)

end Verif.Onnx
