import Verif.Model.Paths
import Verif.Spec.Tracer

/-! Definitions used in the statements of `Verif/Props/Paths.lean`. -/

namespace Verif.Paths
open Verif Tracer

variable {K : Type} [DecidableEq K]

/-- The node is of the class. -/
inductive Is : Ref K → Cls → Prop where
  | node (r) : Is r .node
  | layer (k n) : Is (.layer k n) (.layer k)
  | concat (id) : Is (.cat id) .concat

/-- The path is listed, or listed for an input of a concatenation on such a path. -/
inductive Within : List (Path K) → Path K → Prop where
  | here (ps p) : p ∈ ps → Within ps p
  | inside (ps p id subs l q) : p ∈ ps → PNode.cat id subs ∈ p → l ∈ subs → Within l q → Within ps q

/-- `r` is the first of the nodes that is of one of the classes (of any class if none are given). -/
def First (np : Option (List Cls)) (nodes : Path K) (r : Ref K) : Prop :=
  ∃ before x after, nodes = before ++ x :: after ∧ ref x = r ∧ (∀ cs, np = some cs → ∃ c ∈ cs, Is r c) ∧
    ∀ y ∈ before, ∃ cs, np = some cs ∧ ∀ c ∈ cs, ¬ Is (ref y) c

/-- A layer named `n` of one of the classes, with the nodes behind it on some path. -/
def Layer (tgt : List Cls) (ps : List (Path K)) (n : K) (rest : Path K) : Prop :=
  ∃ path pre k, Within ps path ∧ path = pre ++ .layer k n :: rest ∧ ∃ c ∈ tgt, Is (Ref.layer k n) c

/-- `b` is the first layer of the nodes whose kind stops. -/
def Nearest (stop : LKind → Bool) (nodes : Path K) (b : LKind × K) : Prop :=
  ∃ before after, nodes = before ++ .layer b.1 b.2 :: after ∧ stop b.1 = true ∧
    ∀ x ∈ before, ∃ k n, x = .layer k n ∧ stop k = false

mutual

/-- The layers of the stopping kinds that are met first below the node. -/
def near (stop : LKind → Bool) : G K → List (LKind × K)
  | .null => []
  | .conv dw n p => if stop (if dw then .dwConv else .conv) then [(if dw then .dwConv else .conv, n)] else near stop p
  | .norm n p => if stop .norm then [(.norm, n)] else near stop p
  | .linear n p => if stop .linear then [(.linear, n)] else near stop p
  | .cat _ _ => []
  | .other ps => nearAll stop ps

/-- The same for several nodes. -/
def nearAll (stop : LKind → Bool) : List (G K) → List (LKind × K)
  | [] => []
  | p :: ps => near stop p ++ nearAll stop ps

end

mutual

/-- The pairs of layers such that the second is of a stopping kind and the input of the first comes from it through
other layers only. -/
def nears (stop : LKind → Bool) : G K → List ((LKind × K) × (LKind × K))
  | .null => []
  | .conv dw n p => (near stop p).map (fun b => ((if dw then .dwConv else .conv, n), b)) ++ nears stop p
  | .norm n p => (near stop p).map (fun b => ((.norm, n), b)) ++ nears stop p
  | .linear n p => (near stop p).map (fun b => ((.linear, n), b)) ++ nears stop p
  | .cat _ ps => nearsAll stop ps
  | .other ps => nearsAll stop ps

/-- The same for several nodes. -/
def nearsAll (stop : LKind → Bool) : List (G K) → List ((LKind × K) × (LKind × K))
  | [] => []
  | p :: ps => nears stop p ++ nearsAll stop ps

end

/-- The kinds of layers that do not let pass. -/
def Stopping (np : Option (List Cls)) (stop : LKind → Bool) : Prop :=
  ∀ k, stop k = true ↔ ∀ cs, np = some cs → Cls.node ∈ cs ∨ Cls.layer k ∈ cs

/-- Two convolutions over a sum of two others, one behind a normalisation: the graph of the test of the tracer. -/
def exPaths : List (Path Nat) :=
  [[.layer .conv 3, .layer .norm 12, .layer .conv 2, .layer .norm 11, .layer .conv 1],
    [.layer .conv 3, .layer .norm 11, .layer .conv 1]]

/-- A convolution over a concatenation of two convolutions. -/
def exCat : List (Path Nat) :=
  [[.layer .conv 3, .layer .norm 13, .cat 100 [[[.layer .conv 1]], [[.layer .norm 12, .layer .conv 2]]]]]

/-- A normalisation over a convolution that another branch has visited before. -/
def exCut : G Nat := .other [.conv false 1 (.norm 11 .null), .norm 12 (.conv false 1 (.norm 11 .null))]

end Verif.Paths
