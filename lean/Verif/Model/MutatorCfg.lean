import Verif.Py

/-! Model of how a channel mutator makes its units from a configuration or from traced units, and
writes them as a configuration again: `mmrazor/models/mutators/channel_mutator/channel_mutator.py`,
`slimmable_channel_mutator.py`, and the constructors of
`mmrazor/models/mutables/mutable_channel/units/channel_unit.py` and `mutable_channel_unit.py`.
Modules are known by their names only. -/

namespace Verif.MutatorCfg
open Verif

/-- A value of an argument: a number, or anything else. -/
inductive Val
  | num (n : Nat)
  | tok (t : String)
deriving DecidableEq, Repr

/-- A dictionary of arguments. The order of the keys does not matter. -/
abbrev Args := List (String × Val)

/-- `d.update(u)`. -/
def merge (d u : Args) : Args := d.filter (fun p => (u.lookup p.1).isNone) ++ u

/-- `args[k] = v`. -/
def put (a : Args) (k : String) (v : Val) : Args := merge a [(k, v)]

/-- A class of units: `complete` is the constructor (it refuses arguments, or gives the values of all
arguments as the unit reports them), `start` the choice of a new unit, `set` assigning a choice (it
is refused, or gives what is read back), `prepared` the choice after `prepare_for_pruning`. -/
structure Cls (C : Type) where
  complete : Args → Except Err Args
  start : Args → C
  set : Args → C → Except Err C
  prepared : Args → C → C

/-- A constructor with the given parameters and their defaults: an unknown keyword or a missing
required one is a `TypeError`; otherwise the values of all parameters. -/
def signature (ps : List (String × Option Val)) (a : Args) : Except Err Args :=
  if a.any fun p => (ps.lookup p.1).isNone then .error .type
  else if ps.any fun p => ((a.lookup p.1).or p.2).isNone then .error .type
  else .ok (ps.filterMap fun p => ((a.lookup p.1).or p.2).map fun v => (p.1, v))

/-- The parameters of `SequentialMutableChannelUnit`, sequential_mutable_channel_unit.py lines
34-41. -/
def seqParams : List (String × Option Val) :=
  [("num_channels", none), ("choice_mode", some (.tok "number")), ("divisor", some (.num 1)), ("min_value", some (.num 1)),
   ("min_ratio", some (.tok "0.9"))]

/-- `SequentialMutableChannelUnit` with choices as numbers that are kept as they are (`divisor` 1);
`prepare_for_pruning`, lines 61-76, keeps the choice. -/
def seqCls : Cls Nat where
  complete := signature seqParams
  start a := match a.lookup "num_channels" with
    | some (.num n) => n
    | _ => 0
  set _ c := .ok c
  prepared _ c := c

/-- The parameters of `OneShotMutableChannelUnit`, one_shot_mutable_channel_unit.py lines 33-39. -/
def oneShotParams : List (String × Option Val) :=
  [("num_channels", none), ("candidate_choices", some (.tok "[0.5, 1.0]")), ("choice_mode", some (.tok "ratio")), ("divisor", some (.num 1)),
   ("min_value", some (.num 1)), ("min_ratio", some (.tok "0.9"))]

/-- `OneShotMutableChannelUnit` with the candidates `cands` (percent of the channels) and the maximum
`top`; `prepare_for_pruning`, lines 65-69, sets the maximum. -/
def oneShotCls (cands : List Nat) (top : Nat) : Cls Nat where
  complete := signature oneShotParams
  start _ := top
  set _ c := if c ∈ cands then .ok c else .error .assertion
  prepared _ _ := top

/-- `Channel`, channel_unit.py lines 12-43. -/
structure Chan where
  name : String
  start : Nat
  stop : Nat
  out : Bool
deriving DecidableEq, Repr

/-- The configuration of a channel; `start` and `end` may be missing. -/
structure ChanCfg where
  name : String
  start : Option Nat
  stop : Option Nat
deriving DecidableEq, Repr

/-- The configuration of a unit, any part may be missing. -/
structure UnitCfg (C : Type) where
  initArgs : Option Args
  channels : Option (List ChanCfg × List ChanCfg)
  choice : Option C

/-- A unit; `name` is the name given to it, if any. -/
structure Unit' (C : Type) where
  name : Option String
  args : Args
  ins : List Chan
  outs : List Chan
  choice : C

/-- `num_channels`. -/
def numOf (a : Args) : Nat :=
  match a.lookup "num_channels" with
  | some (.num n) => n
  | _ => 0

/-- `name`, channel_unit.py lines 194-208. -/
def Unit'.fullName {C : Type} (u : Unit' C) : String :=
  match u.name with
  | some n => n
  | none =>
    match u.outs ++ u.ins with
    | [] => "unitx_" ++ toString (numOf u.args)
    | c :: _ => c.name ++ "_(" ++ toString c.start ++ ", " ++ toString c.stop ++ ")_" ++ toString (numOf u.args)

/-- `add_output_related` and `add_input_related`, lines 229-239. -/
def addChan (l : List Chan) (c : Chan) : List Chan := if c ∈ l then l else l ++ [c]

/-- `auto_fill_channel_config` with `Channel.init_from_cfg`, lines 141-150 and 45-58. The number of
channels is read from the configuration. -/
def fill (num : Option Val) (out : Bool) (c : ChanCfg) : Except Err Chan :=
  match c.stop, num with
  | some e, _ => .ok ⟨c.name, c.start.getD 0, e, out⟩
  | none, some (.num n) => .ok ⟨c.name, c.start.getD 0, n, out⟩
  | none, some (.tok _) => .error .type
  | none, none => .error .key

def fillAll (num : Option Val) (out : Bool) : List ChanCfg → List Chan → Except Err (List Chan)
  | [], l => .ok l
  | c :: cs, l =>
    match fill num out c with
    | .error e => .error e
    | .ok ch => fillAll num out cs (addChan l ch)

/-- `if 'choice' in config: unit.current_choice = config['choice']`, mutable_channel_unit.py lines
45-53. -/
def setChoice {C : Type} (cls : Cls C) (c : Option C) (u : Unit' C) : Except Err (Unit' C) :=
  match c with
  | none => .ok u
  | some c =>
    match cls.set u.args c with
    | .error e => .error e
    | .ok v => .ok { u with choice := v }

/-- `init_from_cfg` with the arguments `a` and channels, channel_unit.py lines 136-167. -/
def initFromCfg {C : Type} (cls : Cls C) (a : Args) (ch : List ChanCfg × List ChanCfg) (choice : Option C) : Except Err (Unit' C) :=
  match cls.complete a with
  | .error e => .error e
  | .ok full =>
    match fillAll (a.lookup "num_channels") false ch.1 [] with
    | .error e => .error e
    | .ok ins =>
      match fillAll (a.lookup "num_channels") true ch.2 [] with
      | .error e => .error e
      | .ok outs => setChoice cls choice ⟨none, full, ins, outs, cls.start full⟩

/-- A unit found by the analyser. -/
structure Traced where
  num : Nat
  ins : List Chan
  outs : List Chan
deriving DecidableEq, Repr

/-- The name of a traced unit. -/
def Traced.name (t : Traced) : String :=
  match t.outs ++ t.ins with
  | [] => "unitx_" ++ toString t.num
  | c :: _ => c.name ++ "_(" ++ toString c.start ++ ", " ++ toString c.stop ++ ")_" ++ toString t.num

/-- `self.units_cfg`. -/
abbrev UnitsCfg (C : Type) := List (String × UnitCfg C)

/-- The arguments of a traced unit, channel_mutator.py lines 273-277: the `init_args` of its
configuration, or else the default arguments. -/
def tracedArgs {C : Type} (defaults : Args) (cfg : UnitsCfg C) (name : String) : Args :=
  match cfg.lookup name with
  | some ⟨some a, _, _⟩ => a
  | _ => defaults

/-- `_convert_channel_unit_to_mutable` for one unit, lines 269-279, with `init_from_channel_unit`,
channel_unit.py lines 169-178. -/
def convert {C : Type} (cls : Cls C) (defaults : Args) (cfg : UnitsCfg C) (t : Traced) : Except Err (Unit' C) :=
  match cls.complete (put (tracedArgs defaults cfg t.name) "num_channels" (.num t.num)) with
  | .error e => .error e
  | .ok full => .ok ⟨none, full, t.ins, t.outs, cls.start full⟩

/-- `_prepare_from_tracer`, lines 304-320. -/
def fromTracer {C : Type} (cls : Cls C) (defaults : Args) (cfg : UnitsCfg C) : List Traced → Except Err (List (Unit' C))
  | [] => .ok []
  | t :: ts =>
    match convert cls defaults cfg t with
    | .error e => .error e
    | .ok u =>
      match fromTracer cls defaults cfg ts with
      | .error e => .error e
      | .ok us => .ok (u :: us)

/-- One round of the loop of `_prepare_from_cfg`, lines 336-354, with
`_prepare_unit_from_init_cfg`, lines 356-363. `traced` are the results of the
analyser by name, if there is one (otherwise the variable is unbound). `sameDict`: the configuration
is the dictionary `units_cfg` itself, into which the merged arguments are written (it is not when it
was loaded from a file). -/
def fromCfgOne {C : Type} (cls : Cls C) (defaults : Args) (whole : UnitsCfg C) (sameDict : Bool) (traced : Option (List (String × Traced)))
    (key : String) (cfg : UnitCfg C) : Except Err (Unit' C) :=
  let a := merge defaults (cfg.initArgs.getD [])
  match cfg.channels with
  | some ch =>
    match initFromCfg cls a ch cfg.choice with
    | .error e => .error e
    | .ok u => .ok { u with name := some key }
  | none =>
    match traced with
    | none => .error .name
    | some ts =>
      match ts.lookup key with
      | none => .error .key
      | some t =>
        match convert cls defaults (if sameDict then (t.name, { cfg with initArgs := some a }) :: whole else whole) t with
        | .error e => .error e
        | .ok u => setChoice cls cfg.choice u

def fromCfg {C : Type} (cls : Cls C) (defaults : Args) (whole : UnitsCfg C) (sameDict : Bool) (traced : Option (List (String × Traced))) :
    UnitsCfg C → Except Err (List (Unit' C))
  | [] => .ok []
  | (key, cfg) :: rest =>
    match fromCfgOne cls defaults whole sameDict traced key cfg with
    | .error e => .error e
    | .ok u =>
      match fromCfg cls defaults whole sameDict traced rest with
      | .error e => .error e
      | .ok us => .ok (u :: us)

/-- How the model is parsed: `parse_cfg`; with an analyser, `from_cfg` may be given. -/
inductive Parse
  | analyzer (fromCfg : Bool)
  | config
deriving DecidableEq, Repr

/-- `unit.prepare_for_pruning` of all units, lines 121-124. -/
def pruneAll {C : Type} (cls : Cls C) : Except Err (List (Unit' C)) → Except Err (List (Unit' C))
  | .error e => .error e
  | .ok us => .ok (us.map fun u => { u with choice := cls.prepared u.args u.choice })

/-- `prepare_from_supernet`, lines 95-126, on a model whose analysis gives `ts`: the parse
configuration afterwards (`from_cfg` is popped, line 332) and the units. -/
def prepare {C : Type} (cls : Cls C) (defaults : Args) (cfg : UnitsCfg C) (sameDict : Bool) (ts : List Traced) (p : Parse) :
    Parse × Except Err (List (Unit' C)) :=
  match p with
  | .analyzer true => (.analyzer false, pruneAll cls (fromCfg cls defaults cfg sameDict (some (ts.map fun t => (t.name, t))) cfg))
  | .analyzer false => (.analyzer false, pruneAll cls (fromTracer cls defaults cfg ts))
  | .config => (.config, pruneAll cls (fromCfg cls defaults cfg sameDict none cfg))

/-- `config_template` of a channel, channel_unit.py lines 62-71. -/
def Chan.template (c : Chan) : ChanCfg := ⟨c.name, some c.start, some c.stop⟩

/-- `config_template(with_unit_init_args, with_channels)`, channel_mutator.py lines 172-192. -/
def template {C : Type} (withArgs withChannels : Bool) (us : List (Unit' C)) : UnitsCfg C :=
  us.map fun u => (u.fullName,
    ⟨if withArgs then some u.args else none,
     if withChannels then some (u.ins.map Chan.template, u.outs.map Chan.template) else none, some u.choice⟩)

/-- `_prepare_from_predefined_model`, lines 365-374: the flags that the units get; the argument is
popped in every round. -/
def predefinedFlags : Option Bool → Nat → List Bool
  | _, 0 => []
  | flag, n + 1 => flag.getD false :: predefinedFlags none n

/-- Adding one unit to the subnets, slimmable_channel_mutator.py lines 75-80. -/
def subnetStep {V : Type} (n : Nat) (acc : List (List (String × V))) (kc : String × List V) : Except Err (List (List (String × V))) :=
  if n = kc.2.length then .ok (acc.zipWith (fun d v => d ++ [(kc.1, v)]) kc.2) else .error .assertion

/-- `_prepare_subnets`, slimmable_channel_mutator.py lines 48-82: the candidates of every unit, in
the order of the configuration. -/
def subnets {V : Type} (cfg : List (String × List V)) : Except Err (List (List (String × V))) :=
  let n := match cfg with
    | [] => 0
    | (_, c) :: _ => c.length
  cfg.foldlM (subnetStep n) (List.replicate n [])

end Verif.MutatorCfg
