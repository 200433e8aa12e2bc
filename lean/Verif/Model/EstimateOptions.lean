import Verif.Py
import Mathlib.Data.List.Basic

/-! Model of the options of `ResourceEstimator`,
`mmrazor/models/task_modules/estimators/resource_estimator.py`, and of the hooks that
counting leaves on a model (`counters/flops_params_counter.py`). Latency is not modelled. -/

namespace Verif.EstimateOptions
open Verif

/-- An option value. -/
inductive Val where
  | shape (dims : List Nat)
  | units (flops params : String)
  | flag (b : Bool)
  | names (l : List String)
  | other (n : Nat)
deriving DecidableEq, Repr

/-- A Python dict of options: the first entry of a key counts. -/
abbrev Dict := List (String × Val)

/-- `d.get(k)`. -/
def Dict.get (d : Dict) (k : String) : Option Val := (d.find? (·.1 = k)).map (·.2)

/-- `{**d, **e}`: the entries of `e` win. -/
def Dict.merge (d e : Dict) : Dict := e ++ d

/-- `d[k] = v`. -/
def Dict.set (d : Dict) (k : String) (v : Val) : Dict := (k, v) :: d

/-- The keyword arguments of `get_model_flops_params`, flops_params_counter.py 15-25. -/
def arguments : List String :=
  ["input_shape", "spec_modules", "disabled_counters", "print_per_layer_stat", "units", "as_strings", "seperate_return",
   "input_constructor", "flush", "ost"]

/-- Its local variables, which `co_varnames` lists too. -/
def locals : List String :=
  ["flops_params_model", "input", "_", "batch", "flops_count", "params_count", "flops_suffix", "params_suffix",
   "module_names", "module", "spec_modules_resources", "name", "flops_string", "params_string"]

/-- The defaults of `get_model_flops_params`. -/
def defaults : Dict :=
  [("input_shape", .shape [1, 3, 224, 224]), ("spec_modules", .names []), ("disabled_counters", .names []),
   ("print_per_layer_stat", .flag false), ("units", .units "M" "M"), ("as_strings", .flag false),
   ("seperate_return", .flag false), ("flush", .flag false)]

/-- What the counting returns: FLOPs and parameters, or a dict over the modules asked
for. -/
inductive Counted (α : Type) where
  | pair (flops params : α)
  | each (l : List (String × α × α))
deriving DecidableEq, Repr

/-- The call `get_model_flops_params(model, **cfg)`: unknown keyword is a TypeError;
`seperate_return` without `spec_modules` an AssertionError (lines 74-78); `count` stands
for the counting itself, given the value of every option. -/
def call {α : Type} (count : (String → Option Val) → α × α × List (String × α × α)) (cfg : Dict) : Except Err (Counted α) :=
  if cfg.any (fun e => !(arguments.contains e.1)) then .error .type
  else
    let opt := (Dict.merge defaults cfg).get
    if opt "seperate_return" = some (.flag true) ∧ opt "spec_modules" = some (.names []) then .error .assertion
    else
      let r := count opt
      if opt "seperate_return" = some (.flag true) then .ok (.each r.2.2) else .ok (.pair r.1 r.2.1)

/-- The estimator: its common settings and its own counting options. -/
structure Estimator where
  inputShape : Val
  units : Val
  asStrings : Val
  cfg : Dict
deriving DecidableEq, Repr

/-- `getattr(self, key)` for the common settings. -/
def Estimator.own (e : Estimator) (k : String) : Option Val :=
  if k = "input_shape" then some e.inputShape else if k = "units" then some e.units
  else if k = "as_strings" then some e.asStrings else none

/-- `_check_flops_params_cfg`, lines 183-192. -/
def check (cfg : Dict) : Except Err Unit :=
  if cfg.any (fun x => !((arguments ++ locals).contains x.1)) then .error .key else .ok ()

/-- One iteration of `_set_default_resource_params`, lines 205-215. -/
def setDefault (e : Estimator) (cfg : Dict) (k : String) : Dict :=
  match cfg.get k, e.own k with
  | none, some v => cfg.set k v
  | _, _ => cfg

/-- The counting options used by a call, lines 122-130 (and 165-172): with options given,
those over the estimator's own over the common settings; without, the estimator's own. -/
def Estimator.options (e : Estimator) (opts : Dict) : Except Err Dict :=
  if opts.isEmpty then .ok e.cfg
  else match check (e.cfg.merge opts) with
    | .error x => .error x
    | .ok _ => .ok (["input_shape", "units", "as_strings"].foldl (setDefault e) (e.cfg.merge opts))

/-- A returned value: numbers, or the keys of a dict unpacked in their place. -/
inductive Res (α : Type) where
  | numbers (flops params : α)
  | keys (a b : String)
  | each (l : List (String × α × α))
deriving DecidableEq, Repr

/-- `flops, params = …`, line 141. -/
def unpack {α : Type} : Counted α → Except Err (Res α)
  | .pair f p => .ok (.numbers f p)
  | .each [a, b] => .ok (.keys a.1 b.1)
  | .each _ => .error .value

/-- `estimate`, lines 95-147 (FLOPs and parameters). `opts = []` is `None` or an empty
dict. -/
def Estimator.estimate {α : Type} (count : (String → Option Val) → α × α × List (String × α × α)) (e : Estimator)
    (opts : Dict) : Estimator × Except Err (Res α) :=
  (e, do let cfg ← e.options opts; let r ← call count cfg; unpack r)

/-- `estimate_separation_modules`, lines 149-181. Without options the dict that is marked
is the estimator's own, also when the call then fails. -/
def Estimator.separate {α : Type} (count : (String → Option Val) → α × α × List (String × α × α)) (e : Estimator)
    (opts : Dict) : Estimator × Except Err (Res α) :=
  match e.options opts with
  | .error x => (e, .error x)
  | .ok cfg =>
    let cfg' := cfg.set "seperate_return" (.flag true)
    let e' := if opts.isEmpty then { e with cfg := cfg' } else e
    (e', match cfg'.get "spec_modules" with
      | none => .error .key
      | some (.names []) => .error .assertion
      | some _ => match call count cfg' with
        | .error x => .error x
        | .ok (.pair f p) => .ok (.numbers f p)
        | .ok (.each l) => .ok (.each l))

/-! ### The hooks on the model -/

/-- One counting run on a model whose modules in `hooked` still carry a counting hook:
`start_flops_params_count` (lines 398-426) hooks every counted module that has no hook
and whose counter is enabled; `stop_flops_params_count` (429-437) removes all, unless the
forward pass raises before. Returns the modules counted (`none`: the run failed) and the
hooks left. -/
def countRun (mods : List Nat) (enabled : Nat → Bool) (fails : Bool) (hooked : Nat → Bool) : Option (List Nat) × (Nat → Bool) :=
  let h := fun m => hooked m || (mods.contains m && enabled m)
  if fails then (none, h) else (some (mods.filter h), fun m => if mods.contains m then false else h m)

/-- A history of runs on one model. -/
def history (mods : List Nat) : List ((Nat → Bool) × Bool) → (Nat → Bool) → (Nat → Bool)
  | [], h => h
  | (en, fl) :: rest, h => history mods rest (countRun mods en fl h).2

end Verif.EstimateOptions
