import Verif.Py
import Mathlib.Algebra.Order.Ring.Rat
import Mathlib.Data.List.Infix

/-! Model of `mmrazor/models/distillers/configurable_distiller.py` (lines 97-294) with
`BaseRecorder.get_record_data` (task_modules/recorder/base_recorder.py lines 61-98), of the losses
of `SingleTeacherDistill` and `FpnTeacherDistill` (algorithms/distill/configurable) and of
`StopDistillHook` (engine/hooks/stop_distillation_hook.py).

Dictionaries are lists of pairs. Tensors and losses are abstract. -/

namespace Verif.Distiller
open Verif

abbrev Name := List Char

/-- Recorded data: a tensor, or a list or tuple. -/
inductive Data (T : Type) where
  | tensor (x : T)
  | seq (l : List (Data T))

/-- The value of `from_student`: a `bool`, or something else with its truth value. -/
inductive Flag where
  | bool (b : Bool)
  | other (truth : Bool)
deriving DecidableEq

/-- `if from_student`. -/
def Flag.truth : Flag → Bool
  | .bool b => b
  | .other b => b

/-- A record info, an item of `loss_forward_mappings`: the keys that are present, with their
values; `extra` are keys which are no arguments of `get_record`. (A connector given as `None` is not modelled.) -/
structure Info where
  recorder : Option Name := none
  fromStudent : Option Flag := none
  recordIdx : Int := 0
  dataIdx : Option Int := none
  connector : Option Name := none
  connectorIdx : Option Int := none
  extra : List Name := []
deriving DecidableEq

/-- A loss module: the parameters of `forward` and whether they have a default, and the result
for given arguments. -/
structure Loss (T : Type) where
  params : List (Name × Bool)
  forward : List (Name × Data T) → ℚ

/-- A distiller after `__init__`. -/
structure Cfg (T : Type) where
  student : List Name
  teacher : List Name
  connectors : List (Name × (Data T → Data T))
  losses : List (Name × Loss T)
  mappings : List (Name × List (Name × Info))

variable {T : Type}

/-- Look up in a dictionary. -/
def get? {A : Type} (d : List (Name × A)) (k : Name) : Option A := (d.find? fun p => decide (p.1 = k)).map (·.2)

/-- The checks of one item, lines 256-294. -/
def checkItem (c : Cfg T) (l : Loss T) (key : Name) (i : Info) : Except Err Unit :=
  match get? l.params key with
  | none => .error .assertion
  | some true => .ok ()
  | some false =>
    match i.recorder, i.fromStudent with
    | none, _ => .error .assertion
    | _, none => .error .assertion
    | some _, some (.other _) => .error .type
    | some r, some (.bool b) =>
      if r ∈ (if b then c.student else c.teacher) then
        match i.connector with
        | none => .ok ()
        | some n => if (get? c.connectors n).isSome then .ok () else .error .assertion
      else .error .assertion

/-- The items of one loss. -/
def checkItems (c : Cfg T) (l : Loss T) : List (Name × Info) → Except Err Unit
  | [] => .ok ()
  | (k, i) :: rest =>
    match checkItem c l k i with
    | .error e => .error e
    | .ok _ => checkItems c l rest

/-- `_check_loss_forward_mappings`, lines 227-294. -/
def check (c : Cfg T) : List (Name × List (Name × Info)) → Except Err Unit
  | [] => .ok ()
  | (n, m) :: rest =>
    match get? c.losses n with
    | none => .error .assertion
    | some l =>
      match checkItems c l m with
      | .error e => .error e
      | .ok _ => check c rest

/-- `l[i]` in Python. -/
def pyGet {A : Type} (l : List A) (i : Int) : Except Err A :=
  match l[(if i < 0 then i + l.length else i).toNat]? with
  | some x => if i < -(l.length : Int) then .error .index else .ok x
  | none => .error .index

/-- `get_record_data`, base_recorder.py lines 61-98. -/
def recordData (buf : List (Data T)) (recordIdx : Int) (dataIdx : Option Int) : Except Err (Data T) :=
  if (buf.length : Int) ≤ recordIdx then .error .assertion
  else
    match pyGet buf recordIdx with
    | .error e => .error e
    | .ok r =>
      match dataIdx with
      | none => .ok r
      | some j =>
        match r with
        | .seq l => if (l.length : Int) ≤ j then .error .assertion else pyGet l j
        | .tensor _ => .error .type

/-- What the recorders hold, and how tensors are indexed. -/
structure World (T : Type) where
  student : Name → List (Data T)
  teacher : Name → List (Data T)
  select : T → Int → Except Err T

/-- `record_data[connector_idx]`, lines 205-206. -/
def index (w : World T) (d : Data T) : Option Int → Except Err (Data T)
  | none => .ok d
  | some i =>
    match d with
    | .seq l => pyGet l i
    | .tensor x => (w.select x i).map .tensor

/-- `self.connectors[connector](record_data)`, lines 203-204. -/
def connect (c : Cfg T) (d : Data T) : Option Name → Except Err (Data T)
  | none => .ok d
  | some n =>
    match get? c.connectors n with
    | none => .error .key
    | some f => .ok (f d)

/-- `self.get_record(**record)`, lines 187-208. -/
def getRecord (c : Cfg T) (w : World T) (i : Info) : Except Err (Data T) :=
  match i.recorder, i.fromStudent with
  | some r, some b =>
    if i.extra ≠ [] then .error .type
    else if r ∉ (if b.truth then c.student else c.teacher) then .error .key
    else
      match recordData (if b.truth then w.student r else w.teacher r) i.recordIdx i.dataIdx with
      | .error e => .error e
      | .ok d =>
        match connect c d i.connector with
        | .error e => .error e
        | .ok d => index w d i.connectorIdx
  | _, _ => .error .type

/-- The arguments of a loss, lines 215-218. -/
def getArgs (c : Cfg T) (w : World T) : List (Name × Info) → Except Err (List (Name × Data T))
  | [] => .ok []
  | (k, i) :: rest =>
    match getRecord c w i with
    | .error e => .error e
    | .ok d =>
      match getArgs c w rest with
      | .error e => .error e
      | .ok ds => .ok ((k, d) :: ds)

/-- `loss_module(**forward_kwargs)`, line 221. -/
def call (l : Loss T) (args : List (Name × Data T)) : Except Err ℚ :=
  if args.all (fun a => (get? l.params a.1).isSome) && l.params.all (fun p => p.2 || (get? args p.1).isSome) then .ok (l.forward args)
  else .error .type

/-- `compute_distill_losses`, lines 210-225. -/
def compute (c : Cfg T) (w : World T) : List (Name × List (Name × Info)) → Except Err (List (Name × ℚ))
  | [] => .ok []
  | (n, m) :: rest =>
    match getArgs c w m with
    | .error e => .error e
    | .ok args =>
      match get? c.losses n with
      | none => .error .key
      | some l =>
        match call l args with
        | .error e => .error e
        | .ok v =>
          match compute c w rest with
          | .error e => .error e
          | .ok vs => .ok ((n, v) :: vs)

/-! ### Training -/

/-- `add_prefix`, models/utils/misc.py lines 5-20. -/
def addPrefix (p : Name) (l : List (Name × ℚ)) : List (Name × ℚ) := l.map fun x => (p ++ '.' :: x.1, x.2)

/-- Options of `SingleTeacherDistill`. -/
structure Opts where
  teacherTrainable : Bool
  teacherNormEval : Bool
  studentTrainable : Bool
  calculateStudentLoss : Bool

/-- The losses reported by `SingleTeacherDistill.loss`,
single_teacher_distill.py lines 100-148, for the losses of the three parts. -/
def losses (o : Opts) (stopped : Bool) (teacher student distill : List (Name × ℚ)) : List (Name × ℚ) :=
  (if o.teacherTrainable then addPrefix "teacher".toList teacher else []) ++
  (if o.calculateStudentLoss then addPrefix "student".toList student else []) ++
  (if stopped then [] else addPrefix "distill".toList distill)

/-- Whether the student's forward pass runs with gradients, lines 128-139. -/
def studentGrad (o : Opts) : Bool := o.calculateStudentLoss || o.studentTrainable

/-- The total of `parse_losses` (mmengine): the values whose name contains `loss`. -/
def total (l : List (Name × ℚ)) : ℚ := ((l.filter fun x => decide ("loss".toList <:+: x.1)).map (·.2)).sum

/-- `StopDistillHook.before_train_epoch`, stop_distillation_hook.py lines 21-31; `none` stands for
an algorithm without the attribute. -/
def beforeEpoch (stop epoch : Nat) : Option Bool → Except Err (Option Bool)
  | some b => .ok (some (if stop ≤ epoch then true else b))
  | none => if stop ≤ epoch then .error .assertion else .ok none

/-- The flag in the epochs `epoch`, `epoch + 1`, ..., `n` of them, after building or resuming. -/
def epochs (stop : Nat) : Nat → Nat → Option Bool → Except Err (List (Option Bool))
  | _, 0, _ => .ok []
  | epoch, n + 1, b =>
    match beforeEpoch stop epoch b with
    | .error e => .error e
    | .ok b' =>
      match epochs stop (epoch + 1) n b' with
      | .error e => .error e
      | .ok bs => .ok (b' :: bs)

/-- `train(mode)`, single_teacher_distill.py lines 150-156, for a module of the teacher: whether
it is in training mode afterwards. -/
def teacherMode (o : Opts) (mode isNorm : Bool) : Bool := if mode && o.teacherNormEval && isNorm then false else mode

end Verif.Distiller
