import Verif.Py

/-! Model of `mmrazor/models/task_modules/tracer/fx/custom_tracer.py`: the registry of methods that
are not traced, tracing with it, and the modules of the graph built from a trace.

Modules are imported, attributes are found and Python resolves methods as given by a `World`;
`ImportError` is `Err.runtime`. Tracing itself (of `torch.fx`) is reduced to which calls are
entered and which become a node. -/

namespace Verif.CustomTracer
open Verif

/-- A class. -/
abbrev Cls := ℕ

/-- What a name in an imported module stands for. -/
inductive Attr where
  | cls (c : Cls)
  | other
  deriving DecidableEq

/-- The Python world: module contents by path, method resolution order and own methods of the
classes. -/
structure World where
  modules : List String → Option (String → Option Attr)
  mro : Cls → List Cls
  own : Cls → List String

/-- `UntracedMethodRegistry.method_dict` (names with the class they were registered for),
`UntracedMethodRegistry.tracer`, and the number of tracers made so far; lines 51-52. Both
attributes belong to the class, so there is one registry. -/
structure Reg where
  methods : List (String × Cls)
  tracer : Option ℕ
  made : ℕ

/-- Assignment to a dictionary. -/
def put {V : Type} (d : List (String × V)) (k : String) (v : V) : List (String × V) :=
  match d with
  | [] => [(k, v)]
  | (k', v') :: d => if k' = k then (k, v) :: d else (k', v') :: put d k v

/-- `hasattr` of a class. -/
def hasMethod (w : World) (c : Cls) (name : String) : Bool :=
  (w.mro c).any (fun k => decide (name ∈ w.own k))

/-- One round of `register_skipped_methods`, lines 259-280, with `_check_valid_source`; the source
is given by its parts between dots. Importing the empty path returns `None`. -/
def registerOne (w : World) (d : List (String × Cls)) (source : List String) :
    Except Err (List (String × Cls)) :=
  match source.reverse with
  | [] => .error .assertion
  | [_] => .error .assertion
  | name :: cls :: path =>
    if path = [] then .error .attribute
    else
      match w.modules path.reverse with
      | none => .error .runtime
      | some m =>
        match m cls with
        | none => .error .attribute
        | some .other => .error .type
        | some (.cls c) =>
          if hasMethod w c name = true then .ok (put d name c) else .error .assertion

/-- The loop. -/
def registerAll (w : World) : List (String × Cls) → List (List String) →
    Except Err (List (String × Cls))
  | d, [] => .ok d
  | d, s :: l =>
    match registerOne w d s with
    | .error e => .error e
    | .ok d' => registerAll w d' l

/-- `CustomTracer(skipped_methods=...)`, lines 232-243: the new tracer has the returned number. -/
def newTracer (w : World) (r : Reg) (skipped : List (List String)) : Except Err (ℕ × Reg) :=
  match registerAll w r.methods skipped with
  | .error e => .error e
  | .ok d => .ok (r.made, ⟨d, some r.made, r.made + 1⟩)

/-- What a method does: operations, and calls of methods (with a body) of modules of a class. -/
inductive Stmt where
  | op (n : ℕ)
  | call (c : Cls) (name : String) (body : List Stmt)

/-- Nodes of the traced graph. -/
inductive Node where
  | op (n : ℕ)
  | method (c : Cls) (name : String)
  deriving DecidableEq

/-- The class whose method (or patched method, lines 409-412) a module of a class uses. -/
def resolve (w : World) (owner : Cls) (name : String) : List Cls → Option Cls
  | [] => none
  | k :: l => if k = owner ∨ name ∈ w.own k then some k else resolve w owner name l

/-- Whether the call reaches the wrapper of lines 64-75. -/
def wrapped (w : World) (d : List (String × Cls)) (c : Cls) (name : String) : Bool :=
  match d.lookup name with
  | none => false
  | some owner => decide (resolve w owner name (w.mro c) = some owner)

mutual
/-- `trace` (lines 319-426) by tracer `t`, with `call_method` (lines 282-317). A wrapped method asks
the tracer of the registry; if that is another one, which has not traced anything, it has no graph. -/
def traceStmt (w : World) (r : Reg) (t : ℕ) : Stmt → Except Err (List Node)
  | .op n => .ok [.op n]
  | .call c name body =>
    if wrapped w r.methods c name = true then
      (if r.tracer = some t then .ok [.method c name] else .error .attribute)
    else traceList w r t body

/-- A sequence of statements. -/
def traceList (w : World) (r : Reg) (t : ℕ) : List Stmt → Except Err (List Node)
  | [] => .ok []
  | s :: l =>
    match traceStmt w r t s with
    | .error e => .error e
    | .ok a =>
      match traceList w r t l with
      | .error e => .error e
      | .ok b => .ok (a ++ b)
end

/-! ### `build_graphmodule` -/

/-- Nodes of the graph, referring to earlier ones by position. `module` tells whether the fetched
attribute is a module. -/
inductive GNode where
  | getAttr (target : String) (module : Bool)
  | callMethod (name : String) (args : List ℕ)
  | callModule (target : String)
  | other
  deriving DecidableEq

/-- `getattr(module_dict[target], ...)` is set for the method of line 150. -/
def addMethod (d : List (String × List String)) (target name : String) : List (String × List String) :=
  put d target ((d.lookup target).getD [] ++ [name])

/-- Lines 145-151 for the modules fetched so far: `getattr` of a name with a dot fails. `methods`
lists the methods of a module. -/
def addMethods (methods : String → List String) (name : String) (args : List ℕ) :
    List (ℕ × String) → List (String × List String) → Except Err (List (String × List String))
  | [], d => .ok d
  | (i, target) :: special, d =>
    if i ∈ args then
      (if '.' ∈ target.toList then .error .attribute
      else if name ∈ methods target then addMethods methods name args special (addMethod d target name)
      else .error .attribute)
    else addMethods methods name args special d

/-- `_prepare_module_dict`, lines 78-153: the modules that hold only methods, with their methods. -/
def prepareFrom (methods : String → List String) : ℕ → List GNode → List (ℕ × String) →
    List (String × List String) → Except Err (List (String × List String))
  | _, [], _, d => .ok d
  | j, .getAttr target true :: l, special, d =>
    prepareFrom methods (j + 1) l (special ++ [(j, target)]) (put d target [])
  | j, .callMethod name args :: l, special, d =>
    match addMethods methods name args special d with
    | .error e => .error e
    | .ok d' => prepareFrom methods (j + 1) l special d'
  | j, .getAttr _ false :: l, special, d => prepareFrom methods (j + 1) l special d
  | j, .callModule _ :: l, special, d => prepareFrom methods (j + 1) l special d
  | j, .other :: l, special, d => prepareFrom methods (j + 1) l special d

/-- The whole function. -/
def prepareModuleDict (methods : String → List String) (nodes : List GNode) :
    Except Err (List (String × List String)) := prepareFrom methods 0 nodes [] []

/-- A module object: identity and contents. -/
structure Obj (S : Type) where
  id : ℕ
  state : S

/-- The new target of a use of a module that was used `k` times before, lines 171-178. -/
def dupName (target : String) (k : ℕ) : String :=
  if k = 0 then target else target ++ "_dup" ++ toString k

/-- The number of uses of a module in a list of targets. -/
def uses (target : String) (l : List String) : ℕ := l.count target

/-- `duplicate_reused_nodes`, lines 156-180, on the targets of the `call_module` nodes in order:
new targets and copies. The code goes through the targets one by one, here the nodes are taken in
order; copies get the numbers from `fresh` on. -/
def duplicateFrom {S : Type} (modules : List (String × Obj S)) : ℕ → List String → List String →
    Except Err (List String × List (String × Obj S))
  | _, _, [] => .ok ([], [])
  | fresh, before, t :: l =>
    if uses t before = 0 then
      (match duplicateFrom modules fresh (before ++ [t]) l with
      | .error e => .error e
      | .ok (ts, d) => .ok (t :: ts, d))
    else
      match modules.lookup t with
      | none => .error .key
      | some o =>
        match duplicateFrom modules (fresh + 1) (before ++ [t]) l with
        | .error e => .error e
        | .ok (ts, d) =>
          .ok (dupName t (uses t before) :: ts, (dupName t (uses t before), ⟨fresh, o.state⟩) :: d)

/-- `build_graphmodule`, lines 209-214 (without the modules that hold only methods): the modules
the graph looks its targets up in; copies take precedence. -/
def buildModules {S : Type} (modules dup : List (String × Obj S)) : List (String × Obj S) :=
  dup ++ modules

end Verif.CustomTracer
