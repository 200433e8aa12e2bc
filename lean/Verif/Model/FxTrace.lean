/-
Model of the symbolic tracer of /repo/mmrazor/models/task_modules/tracer/fx_tracer.py,
which records a call as one node when tracing into it fails.

A network is a program over registers. Values are of a type `X`, operations are named by
`O` and parameters by `P`. Programs have no side effects besides recording nodes, and a
register that is not there reads as a default value. Which functions are wrapped
(`AutoWrapper.wrap`, lines 62-137) is not modelled: all called functions are. Concrete
arguments of the root (`concrete_args`) are not modelled.
-/
import Mathlib.Data.List.Basic

namespace Verif.FxTrace

variable {X O P : Type}

/-- How something is called: a function or method, or a module that is a leaf or not. -/
inductive How where
  | func
  | modl (leaf : Bool)
  deriving DecidableEq

/-- Statements; each appends one value to the registers. -/
inductive Stmt (O P : Type) where
  /-- an operation that can be applied to proxies -/
  | prim (op : O) (args : List ℕ)
  /-- an operation that raises on proxies (a branch on a value, `int`, `len`, …) -/
  | strict (op : O) (args : List ℕ)
  /-- reading a parameter of a module -/
  | param (p : P)
  /-- calling something with a body that returns register `ret` -/
  | call (how : How) (body : List (Stmt O P)) (ret : ℕ) (args : List ℕ)

/-- Values during tracing: proxies of nodes, and ordinary values. -/
inductive Val (X : Type) where
  | proxy (n : ℕ)
  | const (x : X)

/-- Nodes of the traced graph. -/
inductive Node (X O P : Type) where
  | input (i : ℕ)
  | getAttr (p : P)
  | op (o : O) (args : List (Val X))
  | call (how : How) (body : List (Stmt O P)) (ret : ℕ) (args : List (Val X))

/-- What operations and parameters mean. -/
structure Sem (X O P : Type) where
  dflt : X
  op : O → List X → X
  param : P → X

/-! ### Running the network -/

mutual

/-- Running one statement. -/
def runStmt (I : Sem X O P) : Stmt O P → List X → X
  | .prim o args, env => I.op o (args.map (fun i => env.getD i I.dflt))
  | .strict o args, env => I.op o (args.map (fun i => env.getD i I.dflt))
  | .param p, _ => I.param p
  | .call _ body ret args, env =>
    (runList I body (args.map (fun i => env.getD i I.dflt))).getD ret I.dflt

/-- Running statements: the registers at the end. -/
def runList (I : Sem X O P) : List (Stmt O P) → List X → List X
  | [], env => env
  | s :: l, env => runList I l (env ++ [runStmt I s env])

end

/-! ### Tracing -/

/-- The graph and `parameter_proxy_cache` (fx_tracer.py 256-257). -/
structure St (X O P : Type) where
  nodes : List (Node X O P)
  cache : List (P × ℕ)

/-- Whether there is a proxy among the arguments (`_find_proxy`). -/
def hasProxy : List (Val X) → Bool
  | [] => false
  | .proxy _ :: _ => true
  | .const _ :: l => hasProxy l

/-- The values of arguments without proxies. -/
def consts : List (Val X) → List X
  | [] => []
  | .proxy _ :: l => consts l
  | .const x :: l => x :: consts l

/-- `create_proxy`: append a node. -/
def push (n : Node X O P) (st : St X O P) : St X O P × Val X :=
  ({ st with nodes := st.nodes ++ [n] }, .proxy st.nodes.length)

/-- Reading a parameter through `module_getattr_wrapper` (fx_tracer.py 261-270): one
node for each parameter. -/
def readParam [DecidableEq P] (p : P) (st : St X O P) : St X O P × Val X :=
  match st.cache.lookup p with
  | some n => (st, .proxy n)
  | none =>
    ({ nodes := st.nodes ++ [.getAttr p], cache := st.cache ++ [(p, st.nodes.length)] },
      .proxy st.nodes.length)

variable [DecidableEq P]

mutual

/-- Tracing one statement; `none` when an exception is raised. Nodes recorded before the
exception stay. A call: `func_wapper` and `method_wrapper` (fx_tracer.py 141-198) for
functions and methods, `call_module` (317-325) for modules. -/
def traceStmt (I : Sem X O P) : Stmt O P → List (Val X) → St X O P → St X O P × Option (Val X)
  | .prim o args, env, st =>
    let as := args.map (fun i => env.getD i (.const I.dflt))
    if hasProxy as then
      let (st, v) := push (.op o as) st
      (st, some v)
    else (st, some (.const (I.op o (consts as))))
  | .strict o args, env, st =>
    let as := args.map (fun i => env.getD i (.const I.dflt))
    if hasProxy as then (st, none)
    else (st, some (.const (I.op o (consts as))))
  | .param p, _, st =>
    let (st, v) := readParam p st
    (st, some v)
  | .call how body ret args, env, st =>
    let as := args.map (fun i => env.getD i (.const I.dflt))
    match how with
    | .modl true =>
      let (st, v) := push (.call how body ret as) st
      (st, some v)
    | .modl false =>
      match traceList I body as st with
      | (st, some env) => (st, some (env.getD ret (.const I.dflt)))
      | (st, none) =>
        let (st, v) := push (.call how body ret as) st
        (st, some v)
    | .func =>
      match traceList I body as st with
      | (st, some env) => (st, some (env.getD ret (.const I.dflt)))
      | (st, none) =>
        if hasProxy as then
          let (st, v) := push (.call how body ret as) st
          (st, some v)
        else
          match traceList I body as st with
          | (st, some env) => (st, some (env.getD ret (.const I.dflt)))
          | (st, none) => (st, none)

/-- Tracing statements. -/
def traceList (I : Sem X O P) : List (Stmt O P) → List (Val X) → St X O P →
    St X O P × Option (List (Val X))
  | [], env, st => (st, some env)
  | s :: l, env, st =>
    match traceStmt I s env st with
    | (st, some v) => traceList I l (env ++ [v]) st
    | (st, none) => (st, none)

end

/-- A network: inputs, the body of `forward` and the register it returns. -/
structure Prog (O P : Type) where
  inputs : ℕ
  body : List (Stmt O P)
  ret : ℕ

/-- `trace` (fx_tracer.py 211-315): the nodes and the argument of the output node, or an
exception. The forward function of the root itself is not wrapped (it is fetched in line
222, before anything is patched). -/
def trace (I : Sem X O P) (p : Prog O P) : Option (List (Node X O P) × Val X) :=
  match traceList I p.body ((List.range p.inputs).map Val.proxy)
      ⟨(List.range p.inputs).map Node.input, []⟩ with
  | (st, some env) => some (st.nodes, env.getD p.ret (.const I.dflt))
  | (_, none) => none

end Verif.FxTrace
