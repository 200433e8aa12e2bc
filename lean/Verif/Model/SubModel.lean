import Verif.Py
import Mathlib.Data.List.Basic
import Mathlib.Data.Nat.Basic

/-! Model of the static models of group Fisher pruning,
`mmrazor/implementations/pruning/group_fisher/prune_sub_model.py` and
`prune_deploy_sub_model.py`, with `make_channel_divisible` of
`mmrazor/models/utils/expandable_utils/tools.py` on the level of the widths of units
(weights are in `Model/Expand.lean`). -/

namespace Verif.SubModel
open Verif

/-- A channel unit: its first layer, whose output channels it covers from the first on,
the number of channels of the unit, those in use, and whether it may be pruned. Layers
with several units are not modelled. -/
structure Chan where
  layer : String
  num : Nat
  kept : Nat
  prunable : Bool
deriving DecidableEq, Repr

/-- The name of a unit, channel_unit.py lines 194-204: made of its first layer, the range
of its channels and their number, `{layer}_(0, {num})_{num}`. -/
def Chan.name (u : Chan) : String × (Nat × Nat) × Nat := (u.layer, (0, u.num), u.num)

/-- Names of units. -/
abbrev Name := String × (Nat × Nat) × Nat

/-- A pruning structure: widths by the names of units. -/
abbrev Structure := List (Name × Nat)

/-- `choice_template`, channel_mutator.py lines 237-250. -/
def template (us : List Chan) : Structure := (us.filter (·.prunable)).map fun u => (u.name, u.kept)

/-- `load_fix_subnet(export_fix_subnet(…))` (fix_subnet.py) and tracing of the static
model: a unit consists of the channels that were in use. -/
def static (us : List Chan) : List Chan := us.map fun u => { u with num := u.kept }

/-- The width of a unit in `make_channel_divisible`, tools.py lines 79-88, for a static
model (all channels in use). -/
def divisibleWidth (d n : Nat) : Nat := if n % d = 0 then n else max ((n / d + 1) * d) n

/-- `make_channel_divisible` and tracing again, tools.py lines 65-94. -/
def makeDivisible (d : Nat) (us : List Chan) : Except Err (List Chan) :=
  if d = 0 ∧ us.any (·.prunable) then .error .zeroDivision
  else .ok (us.map fun u => if u.prunable then { u with num := divisibleWidth d u.num, kept := divisibleWidth d u.num } else u)

/-- `GroupFisherSubModel`, prune_sub_model.py lines 57-104: the units of the static model
and the structure that is saved. -/
def subModel (d : Nat) (us : List Chan) : Except Err (List Chan × Structure) :=
  if d ≠ 1 then
    match makeDivisible d (static us) with
    | .error e => .error e
    | .ok vs => .ok (vs, template vs)
  else .ok (static us, template us)

/-- `unit.current_choice = choice` for a number of channels: a number above that of the
unit activates all of its channels. -/
def Chan.set (u : Chan) (n : Nat) : Chan := { u with kept := min n u.num }

/-- `set_choices`, channel_mutator.py lines 216-227. -/
def setChoices (us : List Chan) : Structure → Except Err (List Chan)
  | [] => .ok us
  | (name, n) :: cs =>
    if us.any (fun u => u.name = name) then setChoices (us.map fun u => if u.name = name then u.set n else u) cs
    else .error .key

/-- `GroupFisherDeploySubModel`, prune_deploy_sub_model.py lines 26-79, on the units of
the unpruned architecture: the units of the static model before
`post_process_for_mmdeploy`. -/
def deploy (us : List Chan) (s : Structure) : Except Err (List Chan) :=
  match setChoices us s with
  | .error e => .error e
  | .ok vs => .ok (static vs)

/-- `post_process_for_mmdeploy`, attached only for a divisor other than 1,
prune_deploy_sub_model.py lines 15-22 and 72-78. -/
def postProcess (d : Nat) (us : List Chan) : Except Err (List Chan) :=
  if d ≠ 1 then makeDivisible d us else .ok us

/-- The widths of the layers of a model. -/
def widths (us : List Chan) : List (String × Nat) := us.map fun u => (u.layer, u.num)

/-- The state of a static model built by `GroupFisherSubModel`: its weights and the saved
structure. -/
structure Built where
  weights : Nat
  saved : Option Structure
deriving DecidableEq, Repr

/-- The replaced `init_weights`, prune_sub_model.py lines 33-53: `dir` says whether the
working directory is known and can be written. A model that is no `BaseModel` keeps its
own method (lines 99-103): it initialises its weights (`fresh`). -/
def initWeights (base : Bool) (rank : Nat) (dir : Bool) (fresh : Nat) (s : Structure) (b : Built) : Built :=
  if base then
    if rank = 0 ∧ dir then { b with saved := some s } else b
  else { b with weights := fresh }

end Verif.SubModel
