import Verif.Py

/-! Model of `mmrazor/structures/graph/base_graph.py`.

Nodes are kept in insertion order by name, each with a value; the links of a node
object are stored by name, which is how nodes of one graph are told apart (names
are the keys of `nodes`). A link target found in `prev_nodes`/`next_nodes` is looked
up by its name only (the code also compares the value, which is the object's own).
`Exception` is reported as `Err.runtime`. Operations return the graph together with
the error they raised, if any. -/

namespace Verif.Graph
open Verif

variable {N V : Type} [DecidableEq N] [DecidableEq V]

/-- `BaseGraph` with the `prev_nodes`/`next_nodes` of its nodes. -/
structure G (N V : Type) where
  nodes : List (N × V)
  prev : N → List N
  next : N → List N

/-- Function update. -/
def upd {A : Type} (f : N → A) (k : N) (v : A) : N → A := fun x => if x = k then v else f x

/-- The empty graph, line 70. -/
def empty : G N V := ⟨[], fun _ => [], fun _ => []⟩

/-- Names in the graph. -/
def names (g : G N V) : List N := g.nodes.map (·.1)

/-- `find_node`, lines 112-117. -/
def found (g : G N V) (n : N) (v : V) : Bool := g.nodes.any (fun p => decide (p.1 = n) && decide (p.2 = v))

/-- `add_node`, lines 119-124, with a newly made node (no links). -/
def addNode (g : G N V) (n : N) (v : V) : G N V × Option Err :=
  if n ∈ names g then (g, some .runtime)
  else (⟨g.nodes ++ [(n, v)], upd g.prev n [], upd g.next n []⟩, none)

/-- `add_or_find_node`, lines 99-110. -/
def addOrFind (g : G N V) (n : N) (v : V) : G N V × Option Err :=
  if found g n v then (g, none) else addNode g n v

/-- Append if absent, lines 29-32 and 36-39. -/
def addIfAbsent (l : List N) (x : N) : List N := if x ∈ l then l else l ++ [x]

/-- `pre.add_next_node(nxt)`, lines 34-39. -/
def addNext (g : G N V) (a b : N) : G N V :=
  { g with next := upd g.next a (addIfAbsent (g.next a) b), prev := upd g.prev b (addIfAbsent (g.prev b) a) }

/-- `nxt.add_prev_node(pre)`, lines 27-32. -/
def addPrev (g : G N V) (b a : N) : G N V :=
  { g with prev := upd g.prev b (addIfAbsent (g.prev b) a), next := upd g.next a (addIfAbsent (g.next a) b) }

/-- `connect` on nodes of the graph, lines 134-135. -/
def link (g : G N V) (a b : N) : G N V := addPrev (addNext g a b) b a

/-- `disconnect` on nodes of the graph, lines 146-149. -/
def unlink (g : G N V) (a b : N) : G N V :=
  { g with next := upd g.next a ((g.next a).erase b), prev := upd g.prev b ((g.prev b).erase a) }

/-- `connect`, lines 126-135. -/
def connect (g : G N V) (a : N) (va : V) (b : N) (vb : V) : G N V × Option Err :=
  if found g a va = true ∧ found g b vb = true then (link g a b, none) else (g, some .assertion)

/-- `disconnect`, lines 137-149. -/
def disconnect (g : G N V) (a : N) (va : V) (b : N) (vb : V) : G N V × Option Err :=
  if found g a va = true ∧ found g b vb = true then (unlink g a b, none) else (g, some .assertion)

/-- `disconnect` of two nodes known by name, as used in `delete_node`. -/
def unlinkChecked (g : G N V) (a b : N) : G N V × Option Err :=
  if a ∈ names g ∧ b ∈ names g then (unlink g a b, none) else (g, some .assertion)

/-- `connect` of two nodes known by name. -/
def linkChecked (g : G N V) (a b : N) : G N V × Option Err :=
  if a ∈ names g ∧ b ∈ names g then (link g a b, none) else (g, some .assertion)

/-- Run `f` on the elements one after another until one raises. -/
def forEach {A : Type} (f : G N V → A → G N V × Option Err) : List A → G N V → G N V × Option Err
  | [], g => (g, none)
  | x :: rest, g =>
    match f g x with
    | (g', none) => forEach f rest g'
    | (g', some e) => (g', some e)

/-- One after the other. -/
def andThen (r : G N V × Option Err) (f : G N V → G N V × Option Err) : G N V × Option Err :=
  match r with
  | (g, none) => f g
  | (g, some e) => (g, some e)

/-- Lines 156-175: removing the links of a node. -/
def bypass (g : G N V) (n : N) : G N V × Option Err :=
  match g.prev n, g.next n with
  | [], nexts => forEach (fun g x => unlinkChecked g n x) nexts g
  | prevs, [] => forEach (fun g x => unlinkChecked g x n) prevs g
  | [p], _ =>
    andThen (unlinkChecked g p n) (fun g1 =>
      forEach (fun g x => andThen (unlinkChecked g n x) (fun g => linkChecked g p x)) (g1.next n) g1)
  | _, [q] =>
    andThen (unlinkChecked g n q) (fun g1 =>
      forEach (fun g x => andThen (unlinkChecked g x n) (fun g => linkChecked g x q)) (g1.prev n) g1)
  | _, _ => (g, some .runtime)

/-- `delete_node`, lines 150-176. -/
def deleteNode (g : G N V) (n : N) (v : V) : G N V × Option Err :=
  if found g n v = true then
    andThen (bypass g n) (fun g => ({ g with nodes := g.nodes.filter (fun p => decide (p.1 ≠ n)) }, none))
  else (g, some .assertion)

/-- Operations of the class. -/
inductive Op (N V : Type) where
  | add (n : N) (v : V)
  | addOrFind (n : N) (v : V)
  | connect (a : N) (va : V) (b : N) (vb : V)
  | disconnect (a : N) (va : V) (b : N) (vb : V)
  | delete (n : N) (v : V)

/-- One operation. -/
def step (g : G N V) : Op N V → G N V × Option Err
  | .add n v => addNode g n v
  | .addOrFind n v => addOrFind g n v
  | .connect a va b vb => connect g a va b vb
  | .disconnect a va b vb => disconnect g a va b vb
  | .delete n v => deleteNode g n v

/-! ### Traversal -/

/-- `in_degree[k] -= 1`, line 226. -/
def decr (deg : List (N × Int)) (k : N) : Option (List (N × Int)) :=
  if k ∈ deg.map (·.1) then some (deg.map (fun p => if p.1 = k then (p.1, p.2 - 1) else p)) else none

/-- The loop over the successors, lines 225-226. -/
def decrAll : List N → List (N × Int) → Option (List (N × Int))
  | [], deg => some deg
  | k :: rest, deg =>
    match decr deg k with
    | none => none
    | some deg' => decrAll rest deg'

/-- The `while` loop of `topo_traverse`, lines 221-226; the first argument is the
number of entries left. Returns the nodes yielded and the error that ended the
traversal, if any. -/
def topoLoop (g : G N V) : Nat → List (N × Int) → List N × Option Err
  | 0, _ => ([], none)
  | k + 1, deg =>
    match deg.find? (fun p => decide (p.2 = 0)) with
    | none => ([], some .runtime)
    | some (n, _) =>
      match decrAll (g.next n) (deg.filter (fun p => decide (p.1 ≠ n))) with
      | none => ([n], some .key)
      | some deg' =>
        let r := topoLoop g k deg'
        (n :: r.1, r.2)

/-- `topo_traverse`, lines 204-226. -/
def topoTraverse (g : G N V) : List N × Option Err :=
  topoLoop g g.nodes.length (g.nodes.map (fun p => (p.1, ((g.prev p.1).length : Int))))

/-- `topo_sort`, lines 228-233: nodes reordered, unless the traversal raises. -/
def topoSort (g : G N V) : G N V × Option Err :=
  match topoTraverse g with
  | (order, none) =>
    ({ g with nodes := order.filterMap (fun n => g.nodes.find? (fun p => decide (p.1 = n))) }, none)
  | (_, some e) => (g, some e)

end Verif.Graph
