import Verif.Py
import Mathlib.Data.List.Basic

/-! Model of the deliveries of `mmrazor/models/task_modules/delivery/`: the queue of
`DistillDelivery`, the wrapper of `FunctionOutputsDelivery` / `MethodOutputsDelivery`
and `DistillDeliveryManager`. The patching of the function is in `Model/Recorder.lean`. -/

namespace Verif.Delivery
open Verif

/-- `DistillDelivery.__init__`, distill_delivery.py lines 33-37. -/
structure Delivery (V : Type) where
  max : Nat
  queue : List V
  override : Bool
deriving DecidableEq, Repr

/-- A new delivery. -/
def Delivery.new {V : Type} (max : Nat) : Delivery V := ⟨max, [], false⟩

/-- The outcome of a call of the wrapped function: what it returned or raised, and
whether the original function ran. -/
structure Outcome (V : Type) where
  result : Except Err V
  ran : Bool

/-- `wrap_func`, function_outputs_delivery.py lines 144-156 (and
method_outputs_delivery.py lines 139-153). `orig` is what the original function would
return or raise. -/
def Delivery.call {V : Type} (d : Delivery V) (orig : Except Err V) : Delivery V × Outcome V :=
  if d.override then
    match d.queue with
    | [] => (d, ⟨.error .assertion, false⟩)
    | v :: q => ({ d with queue := q }, ⟨.ok v, false⟩)
  else if d.queue.length < d.max then
    match orig with
    | .error e => (d, ⟨.error e, true⟩)
    | .ok v => ({ d with queue := d.queue ++ [v] }, ⟨.ok v, true⟩)
  else (d, ⟨.error .assertion, false⟩)

/-- What can happen to a delivery. -/
inductive Op (V : Type) where
  | setOverride (b : Bool)
  | call (orig : Except Err V)

/-- One operation: the new state and, for a call, the mode it ran in and its outcome. -/
def Delivery.step {V : Type} (d : Delivery V) : Op V → Delivery V × Option (Bool × Outcome V)
  | .setOverride b => ({ d with override := b }, none)
  | .call o => ((d.call o).1, some (d.override, (d.call o).2))

/-- A history. -/
def Delivery.run {V : Type} (d : Delivery V) : List (Op V) → Delivery V × List (Bool × Outcome V)
  | [] => (d, [])
  | op :: ops =>
    let r := d.step op
    let s := r.1.run ops
    (s.1, r.2.toList ++ s.2)

/-- Operations on a manager: the mode of all deliveries (delivery_manager.py lines
91-103), or a call of the function of one delivery. -/
inductive MOp (V : Type) where
  | setOverride (b : Bool)
  | call (i : Nat) (orig : Except Err V)

/-- One operation on all the deliveries of a manager. -/
def managerStep {V : Type} (m : Nat → Delivery V) : MOp V → (Nat → Delivery V)
  | .setOverride b => fun i => { m i with override := b }
  | .call i o => fun j => if j = i then ((m j).call o).1 else m j

/-- A history of a manager. -/
def managerRun {V : Type} (m : Nat → Delivery V) (ops : List (MOp V)) : Nat → Delivery V := ops.foldl managerStep m

/-- One training iteration of a distillation with deliveries
(algorithms/distill/configurable/single_teacher_distill.py lines 105-130): the teacher
runs with recording, the student with overriding. -/
def iteration {V : Type} (teacher : List V) (student : List (Except Err V)) : List (Op V) :=
  .setOverride false :: (teacher.map fun v => .call (.ok v)) ++ .setOverride true :: student.map .call

end Verif.Delivery
