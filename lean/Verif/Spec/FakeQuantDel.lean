import Verif.Model.FakeQuantDel
import Mathlib.Logic.Relation
import Mathlib.Logic.Function.Basic
import Mathlib.Data.List.Nodup
import Mathlib.Data.List.Forall2
import Mathlib.Tactic.Linarith

/-! Definitions used in the statements of `Verif/Props/FakeQuantDel.lean`. -/

/-! C49: deleting fake-quantisers from a graph. -/
namespace Verif.FakeQuantDel

/-- The node numbers an argument mentions. -/
def Arg.Refs : Arg → Nat → Prop
  | .const, _ => False
  | .node i, j => i = j
  | .nest l, j => some j ∈ l

/-- A well-formed prepared graph: nodes in order, arguments earlier and present,
each fake-quantiser is a module of the root used by one node with one node as
its argument. -/
structure WF (m : GM) : Prop where
  sorted : m.nodes.Pairwise fun a b => a.id < b.id
  earlier : ∀ n ∈ m.nodes, ∀ a ∈ n.args ++ n.kwargs, ∀ j, a.Refs j → j < n.id
  closed : ∀ n ∈ m.nodes, ∀ j, Arg.node j ∈ n.args ++ n.kwargs → ∃ n' ∈ m.nodes, n'.id = j
  unary : ∀ n ∈ m.nodes, isFq m n = true → ∃ j, n.args = [.node j]
  root : ∀ n ∈ m.nodes, isFq m n = true → n.target.length = 1
  distinct : ∀ n ∈ m.nodes, ∀ n' ∈ m.nodes, isFq m n = true → isFq m n' = true →
    n.target = n'.target → n = n'

/-- The value of an argument. -/
inductive ArgVal (V : Type) where
  | const
  | val (v : V)
  | vals (l : List (Option V))

def argVal {V : Type} (env : Nat → V) : Arg → ArgVal V
  | .const => .const
  | .node i => .val (env i)
  | .nest l => .vals (l.map (Option.map env))

/-- The value of a node: a fake-quantiser that is switched off passes its
argument on, any other node computes `sem` from its arguments. -/
def nodeVal {V : Type} (sem : Nat → List (ArgVal V) → List (ArgVal V) → V) (fq : Nat → Bool)
    (i : Nat) (args kwargs : List (ArgVal V)) : V :=
  if fq i then (match args with | [.val v] => v | _ => sem i args kwargs) else sem i args kwargs

/-- Run the nodes in order. -/
def evalNodes {V : Type} (sem : Nat → List (ArgVal V) → List (ArgVal V) → V) (fq : Nat → Bool) :
    List Node → (Nat → V) → (Nat → V)
  | [], env => env
  | n :: ns, env => evalNodes sem fq ns
      (Function.update env n.id
        (nodeVal sem fq n.id (n.args.map (argVal env)) (n.kwargs.map (argVal env))))

/-- The fake-quantiser nodes of a graph. -/
def fqIds (m : GM) (i : Nat) : Bool := m.nodes.any fun n => n.id == i && isFq m n

/-- `m'` is `m` without the fake-quantiser node `n`, whose argument is `j`. -/
def Removes (m m' : GM) : Prop :=
  ∃ n j, n ∈ m.nodes ∧ isFq m n = true ∧ n.args = [.node j] ∧ remove n (.node j) m = .ok m'

/-- A number of removals. -/
def Reach : GM → GM → Prop := Relation.ReflTransGen Removes

/-- A path through fake-quantisers: from node `k`, skipping fake-quantisers, one
arrives at `j`. -/
inductive FqPath (m : GM) : Nat → Nat → Prop
  | refl (k : Nat) : FqPath m k k
  | step (n : Node) (l j : Nat) : n ∈ m.nodes → isFq m n = true → n.args = [.node l] →
      FqPath m l j → FqPath m n.id j

/-- An argument of the remaining graph and the argument it comes from. -/
def ArgFrom (m : GM) : Arg → Arg → Prop
  | .const, a => a = .const
  | .node k, a => ∃ j, a = .node j ∧ FqPath m k j
  | .nest l, a => ∃ l', a = .nest l' ∧ List.Forall₂
      (fun o o' => o = o' ∨ ∃ k j, o = some k ∧ o' = some j ∧ FqPath m k j) l l'

/-- What is left of `m`: some fake-quantisers are gone, every other node is
there with its arguments redirected along removed fake-quantisers. -/
structure Rest (m m' : GM) : Prop where
  wf : WF m'
  from' : ∀ y ∈ m'.nodes, ∃ x ∈ m.nodes, x.id = y.id ∧ x.op = y.op ∧ x.target = y.target ∧
    List.Forall₂ (ArgFrom m) x.args y.args ∧ List.Forall₂ (ArgFrom m) x.kwargs y.kwargs ∧
    isFq m' y = isFq m x
  keeps : ∀ x ∈ m.nodes, isFq m x = false → ∃ y ∈ m'.nodes, y.id = x.id
  same : ∀ (V : Type) (sem : Nat → List (ArgVal V) → List (ArgVal V) → V) (env : Nat → V)
    (fq : Nat → Bool), (∀ x ∈ m.nodes, isFq m x = true → fq x.id = true) →
    ∀ y ∈ m'.nodes, evalNodes sem fq m'.nodes env y.id = evalNodes sem fq m.nodes env y.id

/-- A fake-quantiser node that is in the graph. -/
def Alive (m : GM) (i : Nat) : Prop := ∃ n ∈ m.nodes, n.id = i ∧ isFq m n = true

/-- From node `t`, going back through nodes that are not fake-quantisers, one
meets the fake-quantiser `i`. -/
inductive Up (m : GM) : Nat → Nat → Prop
  | here (n : Node) : n ∈ m.nodes → isFq m n = true → Up m n.id n.id
  | up (n : Node) (j i : Nat) : n ∈ m.nodes → isFq m n = false →
      Arg.node j ∈ n.args ++ n.kwargs → Up m j i → Up m n.id i

/-- `i` is a node of `m` that is not in `m'`. -/
def Missing (m m' : GM) (i : Nat) : Prop :=
  (∃ x ∈ m.nodes, x.id = i) ∧ ∀ y ∈ m'.nodes, y.id ≠ i

/-- A fake-quantiser whose argument is not a target. -/
def Done (T : List Nat) (m : GM) (y : Node) : Prop :=
  isFq m y = true → ∀ j, y.args = [.node j] → j ∉ T

/-- `x → fq → add(fq, fq) → output`. -/
def addTwice : GM :=
  ⟨[⟨0, .placeholder, [0], [], []⟩, ⟨1, .callModule, [10], [.node 0], []⟩,
    ⟨2, .callFunction, [20], [.node 1, .node 1], []⟩, ⟨3, .output, [], [.node 2], []⟩],
   [([10], .fakeQuant)]⟩

/-- `x → fq0 → conv → fq1 → relu, sigmoid → output`. -/
def twoUsers : GM :=
  ⟨[⟨0, .placeholder, [0], [], []⟩, ⟨1, .callModule, [10], [.node 0], []⟩,
    ⟨2, .callModule, [30], [.node 1], []⟩, ⟨3, .callModule, [11], [.node 2], []⟩,
    ⟨4, .callFunction, [20], [.node 3], []⟩, ⟨5, .callFunction, [20], [.node 3], []⟩,
    ⟨6, .callFunction, [21], [.node 4, .node 5], []⟩, ⟨7, .output, [], [.node 6], []⟩],
   [([10], .fakeQuant), ([30], .other 1), ([11], .fakeQuant)]⟩

/-- The same fake-quantiser module called by two nodes. -/
def shared : GM :=
  ⟨[⟨0, .placeholder, [0], [], []⟩, ⟨1, .callModule, [10], [.node 0], []⟩,
    ⟨2, .callModule, [30], [.node 1], []⟩, ⟨3, .callModule, [10], [.node 2], []⟩,
    ⟨4, .output, [], [.node 3], []⟩],
   [([10], .fakeQuant), ([30], .other 1)]⟩

/-- A module called with a keyword argument only. -/
def kwOnly : GM :=
  ⟨[⟨0, .placeholder, [0], [], []⟩, ⟨1, .callModule, [10], [.node 0], []⟩,
    ⟨2, .callModule, [30], [], [.node 1]⟩, ⟨3, .output, [], [.node 2], []⟩],
   [([10], .fakeQuant), ([30], .other 1)]⟩

/-- `x → fq → conv → fq → ReLU6 → fq → MaxPool2d → fq → output`. -/
def poolNet : GM :=
  ⟨[⟨0, .placeholder, [0], [], []⟩, ⟨1, .callModule, [10], [.node 0], []⟩, ⟨2, .callModule, [30], [.node 1], []⟩,
    ⟨3, .callModule, [11], [.node 2], []⟩, ⟨4, .callModule, [31], [.node 3], []⟩, ⟨5, .callModule, [12], [.node 4], []⟩,
    ⟨6, .callModule, [32], [.node 5], []⟩, ⟨7, .callModule, [13], [.node 6], []⟩, ⟨8, .output, [], [.node 7], []⟩],
   [([10], .fakeQuant), ([30], .other 0), ([11], .fakeQuant), ([31], .other 1), ([12], .fakeQuant), ([32], .other 3), ([13], .fakeQuant)]⟩

end Verif.FakeQuantDel
