import Verif.Model.ModuleGraph
import Verif.Spec.Graph
import Mathlib.Logic.Relation

/-! Definitions used in the statements of `Verif/Props/ModuleGraph.lean`. -/

namespace Verif.ModuleGraph
open Verif Graph

variable {N V W : Type} [DecidableEq N] [DecidableEq V] [DecidableEq W]

/-- A torch graph: names are unique, inputs are nodes and are listed once. -/
def TorchOk (l : List (Fx N V)) : Prop :=
  (l.map Fx.name).Nodup ∧ ∀ x ∈ l, x.inputs.Nodup ∧ ∀ a ∈ x.inputs, a ∈ l.map Fx.name

/-- No node feeds itself through links. -/
def Acyclic (g : G N V) : Prop := ∀ x, ¬ Relation.TransGen (Edge g) x x

/-- Input nodes have no predecessors and output nodes no successors. -/
def RolesOk (role : V → Role) (g : G N V) : Prop :=
  ∀ p ∈ g.nodes, (role p.2 = .input → g.prev p.1 = []) ∧ (role p.2 = .output → g.next p.1 = [])

/-- A node that is fed unless it is an input, and read unless it is an output. -/
def NodeOk (role : V → Role) (g : G N V) (p : N × V) : Prop :=
  (role p.2 = .input ↔ g.prev p.1 = []) ∧ (role p.2 = .output ↔ g.next p.1 = [])

/-- The names of the added nodes are not in use, and their contents make them an
input and an output. -/
def Fresh (a : Auto N V) (g : G N V) : Prop :=
  a.inName ∉ names g ∧ a.outName ∉ names g ∧ a.inName ≠ a.outName
  ∧ a.role a.inVal = .input ∧ a.role a.outVal = .output

/-- The node of name `x` is not an input but is not fed. -/
def LacksInput (role : V → Role) (g : G N V) (x : N) : Prop :=
  ∃ v, (x, v) ∈ g.nodes ∧ role v ≠ .input ∧ g.prev x = []

/-- The node of name `x` is not an output but is not read. -/
def LacksOutput (role : V → Role) (g : G N V) (x : N) : Prop :=
  ∃ v, (x, v) ∈ g.nodes ∧ role v ≠ .output ∧ g.next x = []

/-- What a node of a path stands for: a layer, or the concatenation of an id. -/
inductive Key (K : Type) where
  | layer (n : K)
  | cat (id : K)
  deriving DecidableEq

/-- The key of a node. -/
def keyOf {K : Type} : Tracer.PNode K → Key K
  | .layer _ n => .layer n
  | .cat id _ => .cat id

/-- `k` occurs in the paths, or in the paths of the inputs of a concatenation in them. -/
inductive Mentions {K : Type} : List (Tracer.Path K) → Key K → Prop
  | here {ps path p} (h : path ∈ ps) (hp : p ∈ path) : Mentions ps (keyOf p)
  | inside {ps path id subs sub k} (h : path ∈ ps) (hp : Tracer.PNode.cat id subs ∈ path)
      (hs : sub ∈ subs) (hk : Mentions sub k) : Mentions ps k

/-- `a` feeds `b`: it comes directly after it in a path (paths go from the outputs to
the inputs), or it begins a path of an input of the concatenation `b`. -/
inductive Feeds {K : Type} : List (Tracer.Path K) → Key K → Key K → Prop
  | next {ps l b a l'} (h : l ++ b :: a :: l' ∈ ps) : Feeds ps (keyOf a) (keyOf b)
  | input {ps path id subs sub q l} (h : path ∈ ps) (hp : Tracer.PNode.cat id subs ∈ path)
      (hs : sub ∈ subs) (hq : q :: l ∈ sub) : Feeds ps (keyOf q) (.cat id)
  | inside {ps path id subs sub a b} (h : path ∈ ps) (hp : Tracer.PNode.cat id subs ∈ path)
      (hs : sub ∈ subs) (hk : Feeds sub a b) : Feeds ps a b

/-- The node of a key, when `num` numbers the concatenations. -/
def nodeOf {K : Type} (num : K → ℕ) : Key K → Nm K
  | .layer n => .layer n
  | .cat id => .cat (num id)

/-- A node made for binding. -/
def IsBind {K : Type} (x : Nm K) : Prop := ∃ j, x = .bind j

/-- Linked directly or through one bind node. -/
def Through {K : Type} (g : G (Nm K) Unit) (x y : Nm K) : Prop :=
  Edge g x y ∨ ∃ j, Edge g x (.bind j) ∧ Edge g (.bind j) y

/-- Positions in the example below. -/
def rank : Key ℕ → ℕ
  | .cat _ => 5
  | .layer n => n

section pathProps

variable {K : Type} [DecidableEq K]

end pathProps

/-- An input (0) feeding 1 and 2, a node 3 reading both, an output 4, and a node 5 that
reads 1 but is not read (contents: 0 input, 1 output, 2 other). -/
def exTrace : List (Fx ℕ ℕ) :=
  [⟨0, 0, []⟩, ⟨1, 2, [0]⟩, ⟨2, 2, [0]⟩, ⟨5, 2, [1]⟩, ⟨3, 2, [2, 1]⟩, ⟨4, 1, [3]⟩]

/-- Roles and names for the example. -/
def exAuto : Auto ℕ ℕ :=
  ⟨fun v => if v = 0 then .input else if v = 1 then .output else .other, 100, 0, 101, 1⟩

/-- A layer 9 reading a concatenation and, through a sum, layer 3. -/
def exPaths : List (Tracer.Path ℕ) :=
  [[.layer .conv 9, .cat 0 [[[.layer .conv 1]], [[.layer .conv 2, .layer .conv 1]]]],
   [.layer .conv 9, .layer .conv 3, .layer .conv 1]]

end Verif.ModuleGraph
