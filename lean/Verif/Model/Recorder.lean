import Verif.Py
import Mathlib.Data.List.Basic

/-! Model of the recorders of `mmrazor/models/task_modules/recorder/` (function, method
and module recorders, and their manager). The patching of functions and methods by the
deliveries (`delivery/function_outputs_delivery.py` lines 103-138,
`method_outputs_delivery.py` lines 120-133) is the same as that of the recorders. -/

namespace Verif.Recorder
open Verif

/-- What a name (a function in a module, or a method in a class) is bound to: its
original, or a wrapper of recorder `owner`, made on its entry number `gen`, around another
binding. -/
inductive Fn where
  | orig (name : Nat)
  | wrap (owner gen : Nat) (inner : Fn)
deriving DecidableEq, Repr

/-- The kinds of recorder. -/
inductive Kind where
  | function
  | method
  | module
deriving DecidableEq, Repr

/-- A recorder. `gen` counts the buffers it had: a wrapper made for an older buffer
appends to a list that is no longer reachable. `saved` is `origin_func` (set on entry,
deleted on exit) or `origin_method` (set on construction). -/
structure Rec (V : Type) where
  kind : Kind
  src : Nat
  saved : Option Fn
  gen : Nat
  data : List V
  recording : Bool
deriving DecidableEq, Repr

/-- The names, the recorders, and the recorders whose hook a module carries. -/
structure World (V : Type) where
  slot : Nat → Fn
  rcd : Nat → Rec V
  hooks : Nat → List Nat

/-- Replace a recorder. -/
def World.setRec {V : Type} (w : World V) (i : Nat) (r : Rec V) : World V :=
  { w with rcd := fun j => if j = i then r else w.rcd j }

/-- Rebind a name. -/
def World.bindName {V : Type} (w : World V) (s : Nat) (f : Fn) : World V :=
  { w with slot := fun j => if j = s then f else w.slot j }

/-- `MethodOutputsRecorder.__init__`, method_outputs_recorder.py lines 49-81: the current
binding of the method is remembered. -/
def World.makeMethod {V : Type} (w : World V) (i src : Nat) : World V :=
  w.setRec i ⟨.method, src, some (w.slot src), 0, [], false⟩

/-- `FunctionOutputsRecorder.__init__`. -/
def World.makeFunction {V : Type} (w : World V) (i src : Nat) : World V :=
  w.setRec i ⟨.function, src, none, 0, [], false⟩

/-- `ModuleOutputsRecorder.__init__` and `initialize` (module_outputs_recorder.py
lines 52-75). -/
def World.makeModule {V : Type} (w : World V) (i src : Nat) : World V :=
  w.setRec i ⟨.module, src, none, 0, [], false⟩

/-- `prepare_from_model` of a module recorder: one more hook on the module. -/
def World.initialize {V : Type} (w : World V) (i : Nat) : World V :=
  match (w.rcd i).kind with
  | .module => { w with hooks := fun m => if m = (w.rcd i).src then w.hooks m ++ [i] else w.hooks m }
  | _ => w

/-- `__enter__`: base_recorder.py lines 105-113 (a new buffer),
function_outputs_recorder.py 111-142, method_outputs_recorder.py 134-145,
module_outputs_recorder.py 91-94. That the source exists is assumed. -/
def World.enter {V : Type} (w : World V) (i : Nat) : World V :=
  let r := w.rcd i
  let g := r.gen + 1
  match r.kind with
  | .function =>
    (w.setRec i { r with gen := g, data := [], saved := some (w.slot r.src) }).bindName r.src (.wrap i g (w.slot r.src))
  | .method =>
    (w.setRec i { r with gen := g, data := [] }).bindName r.src (.wrap i g (r.saved.getD (w.slot r.src)))
  | .module => w.setRec i { r with gen := g, data := [], recording := true }

/-- `__exit__`: function_outputs_recorder.py 144-160, method_outputs_recorder.py 147-155,
module_outputs_recorder.py 96-99. -/
def World.exit {V : Type} (w : World V) (i : Nat) : World V :=
  let r := w.rcd i
  match r.kind with
  | .function => (w.setRec i { r with saved := none }).bindName r.src (r.saved.getD (w.slot r.src))
  | .method => w.bindName r.src (r.saved.getD (w.slot r.src))
  | .module => w.setRec i { r with recording := false }

/-- `RecorderManager.__enter__`, recorder_manager.py lines 106-109. -/
def World.enterAll {V : Type} (w : World V) (ids : List Nat) : World V := ids.foldl World.enter w

/-- `RecorderManager.__exit__`, lines 111-114: the same order again. -/
def World.exitAll {V : Type} (w : World V) (ids : List Nat) : World V := ids.foldl World.exit w

/-- The buffers a call of a binding appends to, innermost first. -/
def Fn.effects : Fn → List (Nat × Nat)
  | .orig _ => []
  | .wrap i g f => f.effects ++ [(i, g)]

/-- `data_buffer.append(outputs)` on the buffer of entry `g` of recorder `i`. -/
def World.record {V : Type} (w : World V) (v : V) (e : Nat × Nat) : World V :=
  if (w.rcd e.1).gen = e.2 then w.setRec e.1 { w.rcd e.1 with data := (w.rcd e.1).data ++ [v] } else w

/-- `forward_hook`, module_outputs_recorder.py lines 77-89. -/
def World.hook {V : Type} (w : World V) (v : V) (i : Nat) : World V :=
  if (w.rcd i).recording then w.setRec i { w.rcd i with data := (w.rcd i).data ++ [v] } else w

/-- What happens in the recorded code: a call of a named function or method, or of a
module, with the value produced; `none` when it raised (nothing is appended then). -/
inductive Event (V : Type) where
  | call (name : Nat) (v : Option V)
  | forward (module : Nat) (v : Option V)
deriving DecidableEq, Repr

/-- One event. -/
def World.step {V : Type} (w : World V) : Event V → World V
  | .call s (some v) => (w.slot s).effects.foldl (fun w e => w.record v e) w
  | .forward m (some v) => (w.hooks m).foldl (fun w i => w.hook v i) w
  | _ => w

/-- A sequence of events. -/
def World.run {V : Type} (w : World V) (evs : List (Event V)) : World V := evs.foldl World.step w

end Verif.Recorder
