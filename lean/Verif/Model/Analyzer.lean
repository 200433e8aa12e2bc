import Verif.Py

/-! Model of the channel analyser (`mmrazor/models/task_modules/tracer/channel_analyzer.py`), of the search for
prunable units (`mmrazor/models/mutables/mutable_channel/units/utils.py`), of the units it tries
(`units/mutable_channel_unit.py`, `channel_unit.py`) and of the demo inputs
(`mmrazor/models/task_modules/demo_inputs/*.py`). -/

namespace Verif.Analyzer
open Verif

/-! ### Prunable units -/

/-- The module of a channel: whether it has parameters and whether it is a dynamic layer. -/
structure Module where
  hasParams : Bool
  dynamic : Bool
deriving DecidableEq, Repr

/-- A channel, `Channel`, channel_unit.py lines 27-47. -/
structure Chan where
  name : String
  module : Option Module
  start : Nat
  stop : Nat
  isOutput : Bool
deriving DecidableEq, Repr

/-- `Channel.is_mutable`, lines 80-91. -/
def Chan.mutable (c : Chan) : Bool :=
  match c.module with
  | some m => !m.hasParams || m.dynamic
  | none => !["input_placeholder", "output_placeholder"].contains c.name

/-- Whether the module of a channel is a dynamic layer. -/
def Chan.dynamic (c : Chan) : Bool :=
  match c.module with
  | some m => m.dynamic
  | none => false

/-- `traverse` of `is_mutable`, mutable_channel_unit.py lines 133-142: whether there is a dynamic layer before the first
channel that cannot be pruned, and whether there is no such channel. -/
def traverse : List Chan → Bool → Bool × Bool
  | [], d => (d, true)
  | c :: l, d => if c.mutable = false then (d, false) else traverse l (d || c.dynamic)

/-- `MutableChannelUnit.is_mutable`, lines 129-153. -/
def unitMutable (inputs outputs : List Chan) : Bool :=
  let i := traverse inputs false
  let o := traverse outputs false
  0 < outputs.length && 0 < inputs.length && i.1 && i.2 && o.1 && o.2

/-! ### Outputs and their forms -/

/-- An output of a model. -/
inductive Out
  | tensor (dims : List Nat)
  | seq (l : List Out)
  | dict (l : List (String × Out))
  | other

/-- What `get_shape(…, only_length=True)` gives. -/
inductive Form
  | len (n : Nat)
  | seq (l : List Form)
  | dict (l : List (String × Form))

mutual
/-- `==` of two such values. Dictionaries are compared with the order of their keys here. -/
def Form.same : Form → Form → Bool
  | .len n, .len m => n == m
  | .seq a, .seq b => sameList a b
  | .dict a, .dict b => sameDict a b
  | _, _ => false
def sameList : List Form → List Form → Bool
  | [], [] => true
  | a :: l, b :: r => a.same b && sameList l r
  | _, _ => false
def sameDict : List (String × Form) → List (String × Form) → Bool
  | [], [] => true
  | (k, a) :: l, (j, b) :: r => k == j && a.same b && sameDict l r
  | _, _ => false
end

mutual
/-- `get_shape(…, only_length=True)`, utils.py lines 19-44. -/
def getShape : Out → Except Err Form
  | .tensor d => .ok (.len d.length)
  | .seq l =>
    match getShapes l with
    | .error e => .error e
    | .ok s => .ok (.seq s)
  | .dict l =>
    match getShapeDict l with
    | .error e => .error e
    | .ok s => .ok (.dict s)
  | .other => .error .notImplemented
def getShapes : List Out → Except Err (List Form)
  | [] => .ok []
  | o :: l =>
    match getShape o with
    | .error e => .error e
    | .ok s =>
      match getShapes l with
      | .error e => .error e
      | .ok ss => .ok (s :: ss)
def getShapeDict : List (String × Out) → Except Err (List (String × Form))
  | [] => .ok []
  | (k, o) :: l =>
    match getShape o with
    | .error e => .error e
    | .ok s =>
      match getShapeDict l with
      | .error e => .error e
      | .ok ss => .ok ((k, s) :: ss)
end

/-- `assert_model_is_changed`, lines 12-16. -/
def sameShape (a b : Out) : Except Err Unit :=
  match getShape a with
  | .error e => .error e
  | .ok s =>
    match getShape b with
    | .error e => .error e
    | .ok t => if s.same t then .ok () else .error .assertion

/-! ### Trying units -/

/-- The choice of a tried unit, lines 55-56: `min(max(0.1, sample), 0.9)`, where the sample is a number of channels or
a ratio. -/
def trialRatio (sample : ℚ) : ℚ := min (max (1 / 10) sample) (9 / 10)

/-- The number of channels for a ratio, sequential_mutable_channel_unit.py lines 147-152 (the divisor is 1). -/
def ratio2num (n : Nat) (r : ℚ) : Nat := max 1 (pyInt (n * r)).toNat

/-- `forward_units`, lines 47-61. `run` is the output of the model with the tried units pruned (and all others not). -/
def forwardUnits {U : Type} (run : List U → Except Err Out) (template : Out) (l : List U) : Except Err Unit :=
  match run l with
  | .error e => .error e
  | .ok o => sameShape template o

/-- `find_mutable`, lines 64-80, for a test of groups of units. -/
def findMutable {U : Type} (pass : List U → Bool) (l : List U) : List U :=
  if l.length = 0 then []
  else if pass l then l
  else if l.length = 1 then []
  else findMutable pass (l.take (l.length / 2)) ++ findMutable pass (l.drop (l.length / 2))
termination_by l.length
decreasing_by
  · simp only [List.length_take]; omega
  · simp only [List.length_drop]; omega

/-- Whether a group of units passes. -/
def passes {U : Type} (run : List U → Except Err Out) (template : Out) (l : List U) : Bool :=
  match forwardUnits run template l with
  | .ok _ => true
  | .error _ => false

/-- The modes tried for the template output, channel_analyzer.py lines 153-161: the first that works. `none` is the
output `None`. -/
def template (fwd : String → Except Err (Option Out)) : List String → Option (String × Option Out)
  | [] => none
  | m :: l =>
    match fwd m with
    | .ok o => some (m, o)
    | .error _ => template fwd l

/-- `_find_mutable_units`, lines 140-178, for inputs in a dictionary: the prunable ones among the units. `fwd` is the model
without pruning in a mode, `run` with the given units pruned. -/
def analyse {U : Type} (mutable : U → Bool) (units : List U) (fwd : String → Except Err (Option Out))
    (run : String → List U → Except Err Out) : Except Err (List U) :=
  match template fwd ["loss", "tensor", "predict"] with
  | none => .error .runtime
  | some (_, none) => .error .runtime
  | some (m, some t) => .ok (findMutable (passes (run m) t) (units.filter mutable))

/-! ### Registering the channels of a unit -/

/-- A registered mutable: the unit it comes from, and how many times each channel is repeated (as a fraction). -/
structure Reg where
  unit : Nat
  num : Nat
  den : Nat
deriving DecidableEq, Repr

/-- The ranges of the layers with their mutables: layer, side, first and last channel. -/
abbrev Store := List ((String × Bool × Nat × Nat) × Reg)

/-- The place of a channel. -/
def Chan.key (c : Chan) : String × Bool × Nat × Nat := (c.name, c.isOutput, c.start, c.stop)

/-- One channel of `_register_mutable_channel`, mutable_channel_unit.py lines 260-305. `n` is the number of channels of the
unit. The checks of the container for overlapping ranges are not modelled here. -/
def registerOne (unit n : Nat) (k : Store) (c : Chan) : Except Err Store :=
  if c.dynamic then
    let m := c.stop - c.start
    if m < n then .error .notImplemented
    else if m ≠ n ∧ n = 0 then .error .zeroDivision
    else
      match k.lookup c.key with
      | some r => if r.unit = unit then .ok k else .error .assertion
      | none =>
        .ok (k ++ [(c.key, if m = n then ⟨unit, 1, 1⟩ else if m % n = 0 then ⟨unit, m / n, 1⟩ else ⟨unit, m, n⟩)])
  else .ok k

/-- `_register_mutable_channel`, lines 258-305. -/
def registerAll (unit n : Nat) : List Chan → Store → Except Err Store
  | [], k => .ok k
  | c :: l, k =>
    match registerOne unit n k c with
    | .error e => .error e
    | .ok k' => registerAll unit n l k'

/-! ### Demo inputs -/

/-- The generators, demo_inputs.py. -/
inductive Gen
  | base | mm | cls | det | seg | rotate | yolo | pose
deriving DecidableEq, Repr

/-- The classes that a model may be an instance of, default_demo_inputs.py lines 36-43. -/
inductive Class
  | detector | classifier | segmentor | topdown | baseModel | module
deriving DecidableEq, Repr

/-- `default_demo_input_class_for_scope`, lines 45-53. -/
def scopes : List (String × Gen) :=
  [("mmcls", .cls), ("mmdet", .det), ("mmseg", .seg), ("mmrotate", .rotate), ("mmyolo", .yolo), ("mmpose", .pose), ("torchvision", .base)]

/-- `default_demo_input_class`, lines 36-43. -/
def classes : List (Class × Gen) :=
  [(.detector, .det), (.classifier, .cls), (.segmentor, .seg), (.topdown, .pose), (.baseModel, .mm), (.module, .base)]

/-- The second loop of `get_default_demo_input_class`, lines 64-69. -/
def byClass (is : Class → Bool) : List (Class × Gen) → Gen
  | [] => .base
  | (c, g) :: l => if is c then g else byClass is l

/-- `get_default_demo_input_class`, lines 56-69. -/
def genOf (is : Class → Bool) (scope : Option String) : Gen :=
  match scope with
  | none => byClass is classes
  | some s =>
    match scopes.lookup s with
    | some g => g
    | none => byClass is classes

/-- The facts of a model that generators look at: the number of classes of a segmentor, the input size of a pose
estimator. -/
structure Info where
  numClasses : Nat
  poseSize : List Nat

/-- Generated data: the shape of the inputs, how many annotated samples, and the `training` flag of the preprocessor. -/
structure Data where
  shape : List Nat
  samples : Option Nat
  training : Bool
deriving DecidableEq, Repr

/-- `_get_data` of the generators, demo_inputs.py lines 39-148, mmseg_demo_input.py lines 21-81, mmpose_demo_input.py
lines 24-119. The preprocessor keeps the shape here. -/
def Gen.data (is : Class → Bool) (i : Info) (shape : List Nat) (training : Bool) : Gen → Except Err Data
  | .base => .ok ⟨shape, none, training⟩
  | .mm => .ok ⟨shape, none, training⟩
  | .cls =>
    match shape with
    | [] => .error .index
    | n :: r => if r.length + 1 < n then .error .index else .ok ⟨shape, some n, training⟩
  | .det => if is .detector then .ok ⟨1 :: shape.drop 1, some 1, training⟩ else .error .assertion
  | .rotate => .ok ⟨1 :: shape.drop 1, some 1, training⟩
  | .yolo => if is .detector then .ok ⟨1 :: shape.drop 1, some 1, training⟩ else .error .assertion
  | .seg =>
    if is .segmentor then
      match shape with
      | [n, _, _, _] => if i.numClasses ≤ 1 then .error .runtime else .ok ⟨shape, some n, false⟩
      | _ => .error .value
    else .error .assertion
  | .pose => if is .topdown then .ok ⟨1 :: 3 :: i.poseSize, some 1, !shape.isEmpty⟩ else .error .assertion

/-- The default shapes. -/
def Gen.defaultShape : Gen → List Nat
  | .yolo => [1, 3, 125, 320]
  | _ => [1, 3, 224, 224]

/-- `DefaultDemoInput`, default_demo_inputs.py lines 82-108: the configured shape and flag. -/
structure Demo where
  shape : List Nat
  training : Bool
  scope : Option String
deriving DecidableEq, Repr

/-- `DefaultDemoInput.__init__`; `None` as a model is no instance of any class. -/
def Demo.new (shape : Option (List Nat)) (training : Bool) (scope : Option String) : Demo :=
  ⟨shape.getD (genOf (fun _ => false) scope).defaultShape, training, scope⟩

/-- `get_data`, demo_inputs.py lines 27-37, with the given arguments. -/
def Demo.get (d : Demo) (is : Class → Bool) (i : Info) (shape : Option (List Nat)) (training : Option Bool) : Except Err Data :=
  (genOf is d.scope).data is i (shape.getD d.shape) (training.getD d.training)

/-- `__call__` with a model only, lines 43-47. -/
def Demo.call (d : Demo) (is : Class → Bool) (i : Info) : Except Err Data := d.get is i (some [1, 3, 224, 224]) (some false)

end Verif.Analyzer
