import Verif.Py
import Mathlib.Data.Rat.Defs
import Mathlib.Algebra.Order.Ring.Rat
import Mathlib.Data.List.Basic

/-! Model of the construction of models and optimizers: `build_razor_model_from_cfg` and `sub_model`
(`mmrazor/registry/registry.py`), the constructor of `BaseAlgorithm`
(`mmrazor/models/algorithms/base.py`), `SeparateOptimWrapperConstructor`
(`mmrazor/engine/optimizers/optimizer_constructor.py`) and `set_dropout`
(`mmrazor/models/architectures/utils/set_dropout.py`). -/

namespace Verif.Build
open Verif

/-! ### Building from a config -/

/-- The keys of a config that are looked at: `type`, `cfg_path` and `_return_architecture_`; absent
values are `none`. All other arguments are fixed. -/
structure Cfg where
  type : Option String
  path : Option String
  ret : Option Bool
deriving DecidableEq, Repr

/-- A registered type: whether its objects have an `architecture`, and whether its constructor
accepts unknown arguments (`**kwargs`). -/
structure Ty where
  arch : Bool
  kwargs : Bool
deriving DecidableEq, Repr

/-- What is built: a model of the hub, an object of a type, or the architecture of such an object. -/
inductive Built
  | hub (path : String)
  | whole (type : String)
  | inner (type : String)
deriving DecidableEq, Repr

/-- `build_from_cfg` of mmengine: the missing type and unknown types are `KeyError`s, arguments that
are not accepted `TypeError`s. -/
def buildFromCfg (types : String → Option Ty) (c : Cfg) : Except Err (String × Ty) :=
  match c.type with
  | none => .error .key
  | some t =>
    match types t with
    | none => .error .key
    | some y => if c.ret.isSome && !y.kwargs then .error .type else .ok (t, y)

/-- `build_razor_model_from_cfg`, registry.py lines 35-53: the result and the caller's config
afterwards. -/
def build (types : String → Option Ty) (c : Cfg) : Except Err Built × Cfg :=
  match c.path, c.type with
  | some p, none => (.ok (.hub p), c)
  | _, _ =>
    let ret := c.ret.getD false
    let c := if ret then { c with ret := none } else c
    match buildFromCfg types c with
    | .error e => (.error e, c)
    | .ok (t, y) =>
      if ret then (if y.arch then .ok (.inner t) else .error .attribute, c) else (.ok (.whole t), c)

/-! ### Sub-models -/

/-- A model: whether the subnet is fixed, its `init_cfg`, whether `init_weights` was called
(mmengine initialises once), and the `init_cfg` its weights come from with whether it was a subnet at
that time. -/
structure Net where
  fixed : Bool
  initCfg : Option String
  isInit : Bool
  weights : Option (Option String × Bool)
deriving DecidableEq, Repr

/-- `BaseModule.init_weights` of mmengine. -/
def Net.initWeights (n : Net) : Net :=
  if n.isInit then n else { n with isInit := true, weights := some (n.initCfg, n.fixed) }

/-- `sub_model`, registry.py lines 109-141, on the model built from `cfg`. -/
def subModel (model : Net) (initCfg : Option String) (fromSupernet : Bool) : Net :=
  let model := match initCfg with
    | some c => { model with initCfg := some c }
    | none => model
  let model := if fromSupernet then model.initWeights else model
  let model := { model with fixed := true }
  if fromSupernet then model else model.initWeights

/-! ### `BaseAlgorithm` -/

mutual
/-- A module: its attribute `inplace`, if any, and its children. -/
inductive Mod
  | mk (inplace : Option Bool) (children : Mods)
/-- The children by name. -/
inductive Mods
  | nil
  | cons (name : String) (m : Mod) (rest : Mods)
end

mutual
/-- `set_module_inplace_false`, base.py lines 199-210, on a module. -/
def Mod.setFalse : Mod → Mod
  | .mk (some _) cs => .mk (some false) cs
  | .mk none cs => .mk none cs.setFalse
/-- The same on a dictionary of modules. -/
def Mods.setFalse : Mods → Mods
  | .nil => .nil
  | .cons k m rest => .cons k m.setFalse rest.setFalse
end

/-- The constructor, lines 58-90, with preprocessors as numbers: the preprocessor used and the
architecture. -/
def algorithm (archPre pre : Option Nat) (moduleInplace : Bool) (arch : Mod) : Option Nat × Mod :=
  (match pre with | none => archPre | some p => some p, if moduleInplace then arch else arch.setFalse)

/-! ### `SeparateOptimWrapperConstructor` -/

/-- The config of one optimizer: `paramwise_cfg` and the rest. -/
structure OptCfg where
  paramwise : Option Nat
  rest : Nat
deriving DecidableEq, Repr

/-- A model with its direct children and their parameters, and the model in its attribute
`module`. -/
structure Model where
  children : List (String × List Nat)
  wrapped : Option (List (String × List Nat))
deriving DecidableEq, Repr

/-- An optimizer wrapper: its config without the paramwise part, that part, and its parameters. -/
structure Optim where
  rest : Nat
  paramwise : Option Nat
  params : List Nat
deriving DecidableEq, Repr

/-- `__init__` and `__call__`, optimizer_constructor.py lines 46-74: the optimizers by key. -/
def construct (cfg : List (String × OptCfg)) (paramwise : Option Nat) (m : Model) : Except Err (List (String × Optim)) :=
  if paramwise.isSome then .error .assertion
  else
    let children := m.wrapped.getD m.children
    cfg.mapM fun (x : String × OptCfg) =>
      match children.lookup x.1 with
      | none => .error .key
      | some ps => .ok (x.1, ⟨x.2.rest, x.2.paramwise, ps⟩)

/-! ### `set_dropout` -/

/-- A block: whether it is of the given type, and its drop path rate. -/
structure Block where
  typed : Bool
  rate : ℚ
deriving DecidableEq, Repr

/-- The number of blocks of the type. -/
def count (layer : List Block) : Nat := (layer.filter (·.typed)).length

/-- The loop over the blocks of a layer, set_dropout.py lines 31-35; `before` blocks of the type
are in the layers before. -/
def setLayer (total before : Nat) (rate : ℚ) (layer : List Block) : List Block :=
  layer.zipIdx.map fun (x : Block × Nat) =>
    if x.1.typed then { x.1 with rate := rate * ((before + x.2 : Nat) / (total : ℚ)) } else x.1

/-- The loop over the layers, lines 23-35. -/
def setLayers (total : Nat) (stages : List Nat) (rate : ℚ) : Nat → Nat → List (List Block) → List (List Block)
  | _, _, [] => []
  | idx, visited, layer :: layers =>
    (if idx ∈ stages then setLayer total visited rate layer else layer) ::
      setLayers total stages rate (idx + 1) (visited + count layer) layers

/-- `set_dropout`, lines 7-35. -/
def setDropout (layers : List (List Block)) (stages : List Nat) (rate : ℚ) : List (List Block) :=
  setLayers ((layers.map count).sum) stages rate 1 0 layers

end Verif.Build
