import Verif.Py
import Verif.Model.Delivery
import Mathlib.Data.List.Basic

/-! Model of the distillation algorithms without a full teacher pass:
`mmrazor/models/algorithms/distill/configurable/self_distill.py` and
`fpn_teacher_distill.py`, with `BYOTDistiller` of
`mmrazor/models/distillers/byot_distiller.py`. A forward pass is described by what it
leaves behind: the delivered functions it calls, its losses and its records. -/

namespace Verif.DistillAlgos
open Verif

/-- What a recorder holds: some data, whether it is one tensor (or a tuple), and
whether gradients flow through it. -/
structure Datum where
  value : Nat
  single : Bool
  grad : Bool
deriving DecidableEq, Repr

/-- A forward pass of a network: the deliveries whose function it calls, in order, the
names of the losses it returns and the records it leaves. -/
structure Run where
  calls : List Nat
  losses : List String
  records : List (String × Datum)
deriving DecidableEq, Repr

/-- `torch.no_grad()`: what is computed inside carries no gradient. -/
def noGrad (records : List (String × Datum)) : List (String × Datum) :=
  records.map fun r => (r.1, { r.2 with grad := false })

/-- One input of a distillation loss: an entry of `loss_forward_mappings` without
indices and connectors. -/
structure Info where
  fromStudent : Bool
  recorder : String
deriving DecidableEq, Repr

/-- The state of the deliveries. -/
abbrev Dels := Nat → Delivery.Delivery Unit

/-- `set_deliveries_override`, configurable_distiller.py lines 128-130. -/
def setOverride (m : Dels) (b : Bool) : Dels := fun i => { m i with override := b }

/-- The calls of delivered functions made by a forward pass: the first that raises ends
it (function_outputs_delivery.py lines 144-156). -/
def runCalls (m : Dels) : List Nat → Dels × Except Err Unit
  | [] => (m, .ok ())
  | i :: is =>
    let r := (m i).call (.ok ())
    let m' : Dels := fun j => if j = i then r.1 else m j
    match r.2.result with
    | .error e => (m', .error e)
    | .ok _ => runCalls m' is

/-- `get_record` of `ConfigurableDistiller` (configurable_distiller.py lines 186-208)
and of `BYOTDistiller` (byot_distiller.py lines 18-44; `byot`), without connectors: a
record that was not made is an assertion error of the recorder, and detaching a tuple an
attribute error. -/
def getRecord (byot : Bool) (student teacher : List (String × Datum)) (i : Info) : Except Err Datum :=
  match (if i.fromStudent then student else teacher).lookup i.recorder with
  | none => .error .assertion
  | some d =>
    if byot && !i.fromStudent then
      if d.single then .ok { d with grad := false } else .error .attribute
    else .ok d

/-- The inputs of one loss. -/
def inputs (byot : Bool) (student teacher : List (String × Datum)) : List Info → Except Err (List Datum)
  | [] => .ok []
  | i :: is =>
    match getRecord byot student teacher i with
    | .error e => .error e
    | .ok d =>
      match inputs byot student teacher is with
      | .error e => .error e
      | .ok ds => .ok (d :: ds)

/-- `compute_distill_losses`, configurable_distiller.py lines 210-227: every loss with
whether a gradient flows back from it. -/
def distillLosses (byot : Bool) (student teacher : List (String × Datum)) :
    List (String × List Info) → Except Err (List (String × Bool))
  | [] => .ok []
  | c :: cs =>
    match inputs byot student teacher c.2 with
    | .error e => .error e
    | .ok ds =>
      match distillLosses byot student teacher cs with
      | .error e => .error e
      | .ok ls => .ok ((c.1, ds.any (·.grad)) :: ls)

/-- `add_prefix` of mmrazor/models/utils/misc.py lines 5-20. -/
def addPrefix (p : String) (ls : List (String × Bool)) : List (String × Bool) :=
  ls.map fun l => (p ++ "." ++ l.1, l.2)

/-- The losses of the task: a gradient flows back from each. -/
def taskLosses (r : Run) : List (String × Bool) := addPrefix "student" (r.losses.map fun l => (l, true))

/-- The options of `SelfDistill`, self_distill.py lines 27-42. -/
structure SelfOpts where
  byot : Bool
  calculate : Bool
  trainable : Bool
deriving DecidableEq, Repr

/-- The records of the one pass of `SelfDistill.loss`, self_distill.py lines 70-88. -/
def selfRecords (o : SelfOpts) (s : Run) : List (String × Datum) :=
  if o.calculate then s.records else if o.trainable then s.records else noGrad s.records

/-- `SelfDistill.loss`, self_distill.py lines 55-92: the deliveries only override. -/
def selfLoss (o : SelfOpts) (cfg : List (String × List Info)) (m : Dels) (s : Run) :
    Dels × Except Err (List (String × Bool)) :=
  let r := runCalls (setOverride m true) s.calls
  match r.2 with
  | .error e => (r.1, .error e)
  | .ok _ =>
    match distillLosses o.byot (selfRecords o s) (selfRecords o s) cfg with
    | .error e => (r.1, .error e)
    | .ok ds => (r.1, .ok ((if o.calculate then taskLosses s else []) ++ addPrefix "distill" ds))

/-- Training with `SelfDistill`: the outcome of each step. -/
def selfTrain (o : SelfOpts) (cfg : List (String × List Info)) (m : Dels) :
    List Run → List (Except Err (List (String × Bool)))
  | [] => []
  | s :: ss => (selfLoss o cfg m s).2 :: selfTrain o cfg (selfLoss o cfg m s).1 ss

/-- The options of `FpnTeacherDistill` (those of `SingleTeacherDistill`,
single_teacher_distill.py lines 36-76). -/
structure FpnOpts where
  teacherTrainable : Bool
  studentTrainable : Bool
  calculate : Bool
  stopped : Bool
deriving DecidableEq, Repr

/-- `FpnTeacherDistill.loss`, fpn_teacher_distill.py lines 22-59: `t` is the pass of the
backbone and neck of the teacher, `s` the pass of the student. -/
def fpnLoss (o : FpnOpts) (cfg : List (String × List Info)) (m : Dels) (t s : Run) :
    Dels × Except Err (List (String × Bool)) :=
  let r := runCalls (setOverride m false) t.calls
  match r.2 with
  | .error e => (r.1, .error e)
  | .ok _ =>
    let q := runCalls (setOverride r.1 true) s.calls
    match q.2 with
    | .error e => (q.1, .error e)
    | .ok _ =>
      if o.stopped then (q.1, .ok (taskLosses s))
      else
        match distillLosses false s.records (if o.teacherTrainable then t.records else noGrad t.records) cfg with
        | .error e => (q.1, .error e)
        | .ok ds => (q.1, .ok (taskLosses s ++ addPrefix "distill" ds))

/-- Training with `FpnTeacherDistill`. -/
def fpnTrain (o : FpnOpts) (cfg : List (String × List Info)) (m : Dels) :
    List (Run × Run) → List (Except Err (List (String × Bool)))
  | [] => []
  | x :: xs => (fpnLoss o cfg m x.1 x.2).2 :: fpnTrain o cfg (fpnLoss o cfg m x.1 x.2).1 xs

end Verif.DistillAlgos
