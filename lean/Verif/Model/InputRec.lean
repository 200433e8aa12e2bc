import Verif.Py

/-! Model of the recorders of inputs and parameters in `mmrazor/models/task_modules/recorder/`:
function_inputs_recorder.py, method_inputs_recorder.py, module_inputs_recorder.py and
param_recorder.py, together with the way Python gives the arguments of a call to the parameters of a
function. -/

namespace Verif.InputRec
open Verif

/-! ### Calls -/

/-- The kinds of parameter (`inspect.Parameter.kind`): ordinary, `*rest`, keyword only, `**more`. -/
inductive Kind where
  | ordinary
  | rest
  | keyword
  | more
deriving DecidableEq, Repr

/-- A parameter of a signature, with its default. -/
structure Param (V : Type) where
  name : String
  kind : Kind := .ordinary
  dflt : Option V := none
deriving DecidableEq, Repr

/-- What a parameter is bound to in a call: something given by the caller, the default, the list of
`*rest`, the dictionary of `**more`. -/
inductive Bound (V : Type) where
  | given (v : V)
  | default (v : V)
  | rest (l : List V)
  | more (d : List (String × V))
deriving DecidableEq, Repr

/-- A parameter that can be given by its name. -/
def Param.named {V : Type} (p : Param V) : Bool := p.kind == .ordinary || p.kind == .keyword

/-- A parameter without positional argument. -/
def fill {V : Type} (p : Param V) (kw : List (String × V)) : Except Err (Bound V) :=
  match kw.lookup p.name with
  | some v => .ok (.given v)
  | none =>
    match p.dflt with
    | some v => .ok (.default v)
    | none => .error .type

/-- Put a bound parameter in front of the others. -/
def cons {V : Type} (n : String) (b : Except Err (Bound V)) (r : Except Err (List (String × Bound V))) :
    Except Err (List (String × Bound V)) :=
  match b with
  | .error e => .error e
  | .ok b =>
    match r with
    | .error e => .error e
    | .ok r => .ok ((n, b) :: r)

/-- The parameters from the left, with the positional arguments that are left. `extra` are the
keywords that name no parameter. -/
def bindAll {V : Type} (kw extra : List (String × V)) : List (Param V) → List V → Except Err (List (String × Bound V))
  | [], [] => .ok []
  | [], _ :: _ => .error .type
  | p :: ps, args =>
    match p.kind with
    | .ordinary =>
      match args with
      | v :: args =>
        if (kw.lookup p.name).isSome then .error .type
        else cons p.name (.ok (.given v)) (bindAll kw extra ps args)
      | [] => cons p.name (fill p kw) (bindAll kw extra ps [])
    | .rest => cons p.name (.ok (.rest args)) (bindAll kw extra ps [])
    | .keyword => cons p.name (fill p kw) (bindAll kw extra ps args)
    | .more => cons p.name (.ok (.more extra)) (bindAll kw extra ps args)

/-- A call in Python: what each parameter is bound to, or `TypeError`. -/
def bindCall {V : Type} (ps : List (Param V)) (args : List V) (kw : List (String × V)) :
    Except Err (List (String × Bound V)) :=
  let extra := kw.filter fun k => !ps.any fun p => p.named && p.name == k.1
  if !extra.isEmpty && !ps.any (fun p => p.kind == .more) then .error .type
  else bindAll kw extra ps args

/-! ### Recorders of inputs -/

/-- function_inputs_recorder.py lines 58-71: `func_input_params`, and the list of inputs of one
call. -/
def inputs {V : Type} (ps : List (Param V)) (args : List V) (kw : List (String × V)) : List V :=
  args ++ (ps.map (·.name)).filterMap fun n => kw.lookup n

/-- method_inputs_recorder.py lines 69-83: `list(args[1:])` and the keywords of the signature. -/
def methodInputs {V : Type} (ps : List (Param V)) (args : List V) (kw : List (String × V)) : List V :=
  args.drop 1 ++ (ps.map (·.name)).filterMap fun n => kw.lookup n

/-- module_inputs_recorder.py lines 16-28: the hook gets the positional inputs only. -/
def moduleInputs {V : Type} (args : List V) (_kw : List (String × V)) : List V := args

/-- One call of the recorded function. -/
structure Call (V : Type) where
  args : List V
  kw : List (String × V)
deriving DecidableEq, Repr

/-- `wrap_func`: the function runs first, with its own exception; the inputs are appended after
it has returned. `body` is the function after the arguments have been bound. -/
def wrapped {V R : Type} (rcd : List (Param V) → List V → List (String × V) → List V) (ps : List (Param V))
    (body : List (String × Bound V) → Except Err R) (buf : List (List V)) (c : Call V) : Except Err R × List (List V) :=
  match bindCall ps c.args c.kw with
  | .error e => (.error e, buf)
  | .ok b =>
    match body b with
    | .error e => (.error e, buf)
    | .ok r => (.ok r, buf ++ [rcd ps c.args c.kw])

/-- A sequence of calls whose exceptions are caught: results and buffer. -/
def calls {V R : Type} (rcd : List (Param V) → List V → List (String × V) → List V) (ps : List (Param V))
    (body : List (String × Bound V) → Except Err R) : List (List V) → List (Call V) → List (Except Err R) × List (List V)
  | buf, [] => ([], buf)
  | buf, c :: cs =>
    let w := wrapped rcd ps body buf c
    let t := calls rcd ps body w.2 cs
    (w.1 :: t.1, t.2)

/-! ### Methods of a class -/

/-- What stands in a class under a name: a function, or a static method made of one. -/
inductive Attr where
  | func (f : Nat)
  | static (f : Nat)
deriving DecidableEq, Repr

/-- `getattr(cls, name)`: the plain function in both cases. -/
def Attr.get : Attr → Nat
  | .func f => f
  | .static f => f

/-- A class: what stands under its names. -/
abbrev Cls := String → Option Attr

/-- `setattr(cls, name, function)`. -/
def Cls.set (c : Cls) (n : String) (f : Nat) : Cls := fun m => if m = n then some (.func f) else c m

/-- method_outputs_recorder.py lines 49-81, `__init__`: the function found under the name is
remembered; the test for `FunctionType` lets static methods pass. -/
def methodRecorder (c : Cls) (n : String) : Except Err Nat :=
  match c n with
  | none => .error .assertion
  | some a => .ok a.get

/-- `__enter__`, lines 134-145: the wrapper `w` is put under the name. -/
def enter (c : Cls) (n : String) (w : Nat) : Cls := c.set n w

/-- `__exit__`, lines 147-155: the remembered function is put back. -/
def exit (c : Cls) (n : String) (saved : Nat) : Cls := c.set n saved

/-- The function that a call of a name runs, with its positional arguments: a call on an instance
puts the instance in front, unless the method is static. -/
def callAttr {V : Type} (c : Cls) (n : String) (self? : Option V) (args : List V) : Option (Nat × List V) :=
  match c n with
  | none => none
  | some (.static f) => some (f, args)
  | some (.func f) =>
    match self? with
    | some s => some (f, s :: args)
    | none => some (f, args)

/-! ### Recorder of parameters -/

/-- `named_parameters()` (and `named_modules()`): every object once, under its first name. -/
def firsts : List (String × Nat) → List (String × Nat)
  | [] => []
  | x :: xs => x :: (firsts xs).filter fun y => y.2 != x.2

/-- param_recorder.py lines 37-50: `prepare_from_model`. -/
def prepareParam (source : String) (buf : List Nat) (model : Option (List (String × Nat))) : Except Err (List Nat) :=
  match model with
  | none => .error .assertion
  | some ps =>
    match (firsts ps).find? fun p => p.1 == source with
    | some p => .ok (buf ++ [p.2])
    | none => .error .assertion

/-- base_recorder.py lines 51-59 `initialize`, one model after the other. -/
def initParam (source : String) : List Nat → List (List (String × Nat)) → Except Err (List Nat)
  | buf, [] => .ok buf
  | buf, m :: ms =>
    match prepareParam source buf (some m) with
    | .error e => .error e
    | .ok buf => initParam source buf ms

/-- param_recorder.py lines 52-59: `reset_data_buffer`, called on entry. -/
def resetParam (buf : List Nat) : List Nat := buf

/-- base_recorder.py lines 61-98: `get_record_data()` with its defaults. -/
def recordData (buf : List Nat) : Except Err Nat :=
  match buf with
  | [] => .error .assertion
  | v :: _ => .ok v

end Verif.InputRec
