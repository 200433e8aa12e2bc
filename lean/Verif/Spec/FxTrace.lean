import Verif.Model.FxTrace
import Mathlib.Logic.Relation
import Mathlib.Data.List.GetD
import Mathlib.Tactic.Common
import Mathlib.Order.Basic

/-! Definitions used in the statements of `Verif/Props/FxTrace.lean`. -/

namespace Verif.FxTrace

variable {X O P : Type}

/-- The value of an argument of a node, given the values of the nodes before it. -/
def argVal (I : Sem X O P) (vals : List X) : Val X → X
  | .proxy n => vals.getD n I.dflt
  | .const x => x

/-- The value of a node: an operation is applied, a recorded call is carried out. -/
def nodeVal (I : Sem X O P) (ins vals : List X) : Node X O P → X
  | .input i => ins.getD i I.dflt
  | .getAttr p => I.param p
  | .op o args => I.op o (args.map (argVal I vals))
  | .call _ body ret args => (runList I body (args.map (argVal I vals))).getD ret I.dflt

/-- Executing the nodes of a graph in order. -/
def evalFrom (I : Sem X O P) (ins : List X) : List X → List (Node X O P) → List X
  | vals, [] => vals
  | vals, n :: l => evalFrom I ins (vals ++ [nodeVal I ins vals n]) l

/-- Executing a graph: the value of its output. -/
def exec (I : Sem X O P) (nodes : List (Node X O P)) (out : Val X) (ins : List X) : X :=
  argVal I (evalFrom I ins [] nodes) out

/-- What the network computes. -/
def output (I : Sem X O P) (p : Prog O P) (ins : List X) : X :=
  (runList I p.body ins).getD p.ret I.dflt

/-- The arguments of a node. -/
def argsOf : Node X O P → List (Val X)
  | .op _ args => args
  | .call _ _ _ args => args
  | _ => []

/-- Node `m` is an argument of node `n`. -/
def Reads (nodes : List (Node X O P)) (m n : ℕ) : Prop :=
  ∃ nd, nodes[n]? = some nd ∧ Val.proxy m ∈ argsOf nd

/-- The output depends on input `i` by the links of the graph. -/
def Connected (nodes : List (Node X O P)) (out : Val X) (i : ℕ) : Prop :=
  ∃ m n, nodes[m]? = some (.input i) ∧ out = .proxy n ∧ Relation.ReflTransGen (Reads nodes) m n

/-- A statement that cannot make the root fail: it can be traced, or it is the call of a
module, or the call of a function that is given an input of the network. -/
def SafeStmt (k : ℕ) : Stmt O P → Prop
  | .prim _ _ => True
  | .strict _ _ => False
  | .param _ => True
  | .call (.modl _) _ _ _ => True
  | .call .func _ _ args => ∃ i ∈ args, i < k

mutual

/-- There is no operation in the statement that raises on proxies. -/
def clear : Stmt O P → Bool
  | .prim _ _ => true
  | .strict _ _ => false
  | .param _ => true
  | .call _ body _ _ => clearAll body

/-- The same for a list. -/
def clearAll : List (Stmt O P) → Bool
  | [] => true
  | s :: l => clear s && clearAll l

end

/-- Numbers with addition (0), multiplication (1) and absolute value (2). -/
def exSem : Sem Int ℕ ℕ :=
  ⟨0, fun o l => match o, l with
    | 0, [a, b] => a + b
    | 1, [a, b] => a * b
    | _, [a] => if a < 0 then -a else a
    | _, _ => 0, fun p => p + 2⟩

/-- A network of two inputs: a module multiplying with a parameter, then a function that
branches on its argument. The second input is not used. -/
def exProg : Prog ℕ ℕ :=
  ⟨2, [.call (.modl false) [.param 1, .prim 1 [0, 1]] 2 [0],
    .call .func [.prim 0 [0, 1], .strict 2 [2]] 3 [0, 2]], 3⟩

end Verif.FxTrace
