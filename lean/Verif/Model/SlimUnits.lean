import Verif.Model.ChannelUnit
import Verif.Model.MutatorCfg
import Verif.Model.Distiller
import Mathlib.Data.List.Dedup
import Mathlib.Logic.Function.Basic

/-! Model of slimmable networks: `units/slimmable_channel_unit.py` in
`mmrazor/models/mutables/mutable_channel/`, `SwitchableBatchNorm2d` of
`architectures/dynamic_ops/bricks/dynamic_norm.py`, `SlimmableChannelMutator` and
`algorithms/pruning/slimmable_network.py`.

What a normalisation layer computes is not modelled here (see `Verif.DynamicNorm`), only which of
its layers is used. Units are known by their names; a normalisation layer lists the units whose
channels it normalises, in the order of its channels. -/

namespace Verif.SlimUnits
open Verif SeqChannel ChannelUnit

/-- A unit of the mutator: whether the configuration names it, and its constructor arguments (the
defaults, without candidates, if it is not named). -/
structure SUnit where
  name : String
  named : Bool
  cfg : Cfg
  raw : List Choice

/-- A unit after its construction. -/
structure PUnit where
  name : String
  cfg : Cfg
  cands : List Choice

/-- A `SwitchableBatchNorm2d`: its width, the units of its channels and the widths for which
`candidate_bn` has a layer. -/
structure Norm where
  num : Nat
  parts : List String
  cands : List Nat
  deriving DecidableEq

/-- A layer of a `SwitchableBatchNorm2d`: itself or one of `candidate_bn`. -/
inductive Layer where
  | own
  | cand (width : Nat)
  deriving DecidableEq, Repr

/-- The network: the units, the normalisation layers and the mask of every unit. -/
structure Net where
  units : List PUnit
  norms : List Norm
  mask : String → List Bool

/-- The requested candidates, one_shot_mutable_channel_unit.py lines 42-45: the full width if there
are none. -/
def requested (u : SUnit) : List Choice :=
  if u.raw = [] then [if u.cfg.ratioMode then .ratio 1 else .num u.cfg.n] else u.raw

/-- The constructor of a unit, one_shot_mutable_channel_unit.py lines 33-52. -/
def build (A : Arith) (u : SUnit) : Except Err PUnit :=
  match prepareCandidates A u.cfg (requested u) with
  | .error e => .error e
  | .ok c => .ok ⟨u.name, u.cfg, c⟩

/-- `_check_candidates` for one value, dynamic_norm.py lines 195-199. -/
def fits (num : Nat) : Choice → Bool
  | .num k => decide (0 < k ∧ k ≤ num)
  | .ratio _ => false

/-- The widths of candidates, the keys of `candidate_bn`, dynamic_norm.py lines 164-168. -/
def widths (cs : List Choice) : List Nat :=
  (cs.filterMap fun
    | .num k => some k.toNat
    | .ratio _ => none).dedup

/-- `alter_candidates_of_switchbn` for one layer, slimmable_channel_unit.py lines 55-59, with
`init_candidates`, dynamic_norm.py lines 160-168. -/
def normInit (u : PUnit) (m : Norm) : Except Err Norm :=
  if u.name ∈ m.parts ∧ m.cands = [] then
    if u.cands.all (fits m.num) then .ok { m with cands := widths u.cands } else .error .assertion
  else .ok m

/-- `prepare_for_pruning` of a unit, slimmable_channel_unit.py lines 42-60: the layers get
candidates, then the unit is set to its last candidate. -/
def prepUnit (A : Arith) (s : List Norm × (String → List Bool)) (u : PUnit) :
    Except Err (List Norm × (String → List Bool)) :=
  match s.1.mapM (normInit u) with
  | .error e => .error e
  | .ok ms =>
    match u.cands.getLast? with
    | none => .error .index
    | some c =>
      match setOneShot A u.cfg u.cands c with
      | .error e => .error e
      | .ok mk => .ok (ms, Function.update s.2 u.name mk)

/-- The mask of a unit before anything was set. -/
def startMask (us : List PUnit) (nm : String) : List Bool :=
  match us.find? (fun u => u.name == nm) with
  | some u => List.replicate u.cfg.n true
  | none => []

/-- `prepare_from_supernet`, channel_mutator.py lines 95-126: all units are built, then each of them
is prepared in their order. (Tracing the network is in `Verif.ChannelFlow`.) -/
def prepare (A : Arith) (us : List SUnit) (norms : List Norm) : Except Err Net :=
  match us.mapM (build A) with
  | .error e => .error e
  | .ok ps =>
    match ps.foldlM (prepUnit A) (norms, startMask ps) with
    | .error e => .error e
    | .ok s => .ok ⟨ps, s.1, s.2⟩

/-- One item of `set_choices`, slimmable_channel_mutator.py lines 36-40. -/
def setChoice (A : Arith) (net : Net) (nc : String × Choice) : Except Err Net :=
  match net.units.find? (fun u => u.name == nc.1) with
  | none => .error .key
  | some u =>
    match setOneShot A u.cfg u.cands nc.2 with
    | .error e => .error e
    | .ok mk => .ok { net with mask := Function.update net.mask nc.1 mk }

/-- `set_choices`, slimmable_channel_mutator.py lines 36-40. -/
def setChoices (A : Arith) (net : Net) (cs : List (String × Choice)) : Except Err Net :=
  cs.foldlM (setChoice A) net

/-- `activated_channel_num`, dynamic_norm.py lines 189-193, over the container of the masks of the
units. -/
def width (net : Net) (m : Norm) : Nat :=
  (m.parts.map fun p => popcount (net.mask p)).sum

/-- The layer used by `forward` and by `to_static_op`, dynamic_norm.py lines 170-186. -/
def layerOf (m : Norm) (w : Nat) : Except Err Layer :=
  if w = m.num then .ok .own
  else if w ∈ m.cands then .ok (.cand w)
  else .error .assertion

/-- One forward pass (or one conversion to static operations): the layer used by every
normalisation layer. -/
def run (net : Net) : Except Err (List Layer) :=
  net.norms.mapM fun m => layerOf m (width net m)

/-- `_slimmable_train_step`, slimmable_network.py lines 89-113: every subnet is set and trained. The
result is the network with the layers used by each subnet. -/
def trainStep (A : Arith) (net : Net) : List (List (String × Choice)) → Except Err (Net × List (List Layer))
  | [] => .ok (net, [])
  | s :: ss =>
    match setChoices A net s with
    | .error e => .error e
    | .ok net1 =>
      match run net1 with
      | .error e => .error e
      | .ok ls =>
        match trainStep A net1 ss with
        | .error e => .error e
        | .ok r => .ok (r.1, ls :: r.2)

/-- `_deploy`, slimmable_network.py lines 135-140: the layer that replaces every normalisation
layer. -/
def deploy (A : Arith) (net : Net) (subs : List (List (String × Choice))) (i : Int) : Except Err (List Layer) :=
  match Distiller.pyGet subs i with
  | .error e => .error e
  | .ok s =>
    match setChoices A net s with
    | .error e => .error e
    | .ok net1 => run net1

/-- The subnets of the mutator, slimmable_channel_mutator.py lines 32-34: from the requested
candidates of the units that the configuration names (here in the order of the units). -/
def subnetsOf (us : List SUnit) : Except Err (List (List (String × Choice))) :=
  MutatorCfg.subnets ((us.filter SUnit.named).map fun u => (u.name, u.raw))

/-- The constructor of the algorithm, slimmable_network.py lines 47-72: prepare the units, then deploy
one subnet unless the index is `-1`. -/
def slimmable (A : Arith) (us : List SUnit) (norms : List Norm) (deployIndex : Int) :
    Except Err (Net × Option (List Layer)) :=
  match subnetsOf us with
  | .error e => .error e
  | .ok subs =>
    match prepare A us norms with
    | .error e => .error e
    | .ok net =>
      if deployIndex = -1 then .ok (net, none)
      else
        match deploy A net subs deployIndex with
        | .error e => .error e
        | .ok ls => .ok (net, some ls)

end Verif.SlimUnits
