import Verif.Py

/-!
Command line tools of the repository (`tools/`): the settings of a training run, the conversion of
a supernet checkpoint to a subnet, the configuration for pruning, publication of a checkpoint, the
simulated learning-rate curve and the drawing of differences of feature maps.

Simplifications.  Configurations are records with the fields the tools read or write.  Paths are
lists of characters.  A file system is a list of writes, the last write to a name being the content
of that file.  Of mmengine only these facts are used: `Runner.from_cfg` builds the model with its
initial weights and the checkpoint named by `load_from` is read at the start of `train`, `val` and
`test`; an optimizer wrapper without type is an `OptimWrapper`; the default sampler gives every
process `ceil(size / processes)` samples, which are read in batches with the last, smaller batch
kept.
-/

namespace Verif.CmdTools

/-! ### Training -/

/-- One optimizer wrapper of the configuration: its `type`, if the key is there, and whether
`loss_scale` is `'dynamic'`. -/
structure Wrap where
  type : Option String
  dynamic : Bool
deriving DecidableEq, Repr

/-- `cfg.optim_wrapper`: the keys of the wrapper itself, whether `constructor` is set, and the
wrappers of the architecture and of the mutator. -/
structure Optim where
  top : Wrap
  constructor : Bool
  architecture : Option Wrap
  mutator : Option Wrap
deriving DecidableEq, Repr

/-- The wrapper with mixed precision (tools/train.py lines 86-87 and 91-92). -/
def ampWrap : Wrap := ⟨some "AmpOptimWrapper", true⟩

/-- tools/train.py lines 75-87: the wrapper itself. -/
def ampTop (o : Optim) : Except Err Optim :=
  match o.top.type with
  | none => .ok o
  | some t =>
    if t = "" then .ok o
    else if t = "AmpOptimWrapper" then .ok o
    else if t = "OptimWrapper" then .ok { o with top := ampWrap }
    else .error .assertion

/-- tools/train.py lines 89-92: the wrapper of the architecture when a constructor is given.  A
missing `architecture`, or one without `type`, raises an `AttributeError`. -/
def ampArch (o : Optim) : Except Err Optim :=
  if o.constructor then
    match o.architecture with
    | none => .error .attribute
    | some w =>
      match w.type with
      | none => .error .attribute
      | some t =>
        if t = "OptimWrapper" then .ok { o with architecture := some ampWrap } else .ok o
  else .ok o

/-- tools/train.py lines 74-97: `--amp`. -/
def amp (o : Optim) : Except Err Optim := ampTop o >>= ampArch

/-- `cfg.auto_scale_lr`: the keys `enable` and `base_batch_size`, if there. -/
structure ScaleLr where
  enable : Option Bool
  base : Option Nat
deriving DecidableEq, Repr

/-- The part of the configuration of a run that `tools/train.py` reads or writes. -/
structure RunCfg where
  workDir : Option (List Char)
  optim : Optim
  scale : Option ScaleLr
  resume : Bool
  loadFrom : Option (List Char)
deriving DecidableEq, Repr

/-- The command line of `tools/train.py` (lines 17-52). -/
structure TrainArgs where
  config : List Char
  workDir : Option (List Char)
  amp : Bool
  autoScale : Bool
  resume : Bool
deriving DecidableEq, Repr

/-- `osp.basename`: what follows the last slash. -/
def basename (p : List Char) : List Char := (p.reverse.takeWhile (· != '/')).reverse

/-- `osp.splitext(name)[0]` of a base name: everything before the last dot; a name without dot, or
whose only dots lead it, is kept. -/
def stem (n : List Char) : List Char :=
  if (n.dropWhile (· == '.')).contains '.' then
    ((n.reverse.dropWhile (· != '.')).drop 1).reverse
  else n

/-- tools/train.py lines 64-71 (and tools/test.py lines 53-60, tools/ptq.py lines 54-61): the
directory of the run. -/
def workDir (config : List Char) (arg cfg : Option (List Char)) : List Char :=
  match arg with
  | some d => d
  | none =>
    match cfg with
    | some d => d
    | none => "./work_dirs/".toList ++ stem (basename config)

/-- tools/train.py lines 100-109: `--auto-scale-lr`. -/
def autoScale (s : Option ScaleLr) : Except Err (Option ScaleLr) :=
  match s with
  | some ⟨some _, some b⟩ => .ok (some ⟨some true, some b⟩)
  | _ => .error .runtime

/-- tools/train.py lines 74-97 behind `if args.amp`. -/
def ampIf (flag : Bool) (o : Optim) : Except Err Optim := if flag then amp o else .ok o

/-- tools/train.py lines 100-109 behind `if args.auto_scale_lr`. -/
def scaleIf (flag : Bool) (s : Option ScaleLr) : Except Err (Option ScaleLr) :=
  if flag then autoScale s else .ok s

/-- tools/train.py lines 58-111: the configuration the runner is built from. -/
def trainCfg (a : TrainArgs) (c : RunCfg) : Except Err RunCfg :=
  match ampIf a.amp c.optim with
  | .error e => .error e
  | .ok o =>
    match scaleIf a.autoScale c.scale with
    | .error e => .error e
    | .ok s =>
      .ok { c with workDir := some (workDir a.config a.workDir c.workDir), optim := o, scale := s,
                   resume := a.resume }

/-! ### Testing -/

/-- `cfg.test_cfg`: its `type`, if there, and `only_val`. -/
structure TestCfg where
  type : Option (List Char)
  onlyVal : Bool
deriving DecidableEq, Repr

/-- tools/test.py lines 62-70: the checkpoint and the test loop of a test run. -/
def testCfg (checkpoint : List Char) (t : TestCfg) : Option (List Char) × TestCfg :=
  if checkpoint = "none".toList then (none, t)
  else
    match t.type with
    | none => (some checkpoint, t)
    | some n =>
      if "PTQLoop".toList.isSuffixOf n then (some checkpoint, { t with onlyVal := true })
      else (some checkpoint, t)

/-! ### Weights -/

/-- A runner of mmengine: the weights of its model and the checkpoint of `load_from`. -/
structure Runner (W : Type) where
  weights : W
  loadFrom : Option W
deriving Repr

/-- `Runner.from_cfg` of mmengine: the model has its initial weights. -/
def fromCfg {W : Type} (init : W) (loadFrom : Option W) : Runner W := ⟨init, loadFrom⟩

/-- `Runner.load_or_resume` of mmengine, called by `train`, `val` and `test`. -/
def loadOrResume {W : Type} (r : Runner W) : Runner W :=
  match r.loadFrom with
  | none => r
  | some w => { r with weights := w }

/-- tools/model_converters/convert_supernet2subnet.py lines 42-55: the weights saved for the
subnet; `slice` is what fixing the subnet does to the weights. -/
def toSubnet {W : Type} (slice : W → W) (init checkpoint : W) : W :=
  slice (fromCfg init (some checkpoint)).weights

/-- tools/test.py lines 68-76: the weights that are tested. -/
def tested {W : Type} (init : W) (checkpoint : Option W) : W :=
  (loadOrResume (fromCfg init checkpoint)).weights

/-- tools/model_converters/convert_supernet2subnet.py lines 49-51: the name of the file, from the
time in seconds.  The name holds the date, hour and minute; they are given by the number of the
minute. -/
def subnetName (seconds : Nat) : Nat := seconds / 60

/-! ### Static models -/

/-- `name.split('.')[0]`: everything before the first dot. -/
def firstPart (n : List Char) : List Char := n.takeWhile (· != '.')

/-- tools/pruning/get_static_model_from_algorithm.py lines 33-42 and 76-79: directory, checkpoint
and structure file. -/
def staticPaths (config checkpoint target : List Char) :
    List Char × List Char × List Char :=
  let dir := if target ≠ [] then target
    else "work_dirs/".toList ++ firstPart (basename config)
  let name := firstPart (basename checkpoint) ++ "_pruned".toList
  (dir, name ++ ".pth".toList, name ++ ".json".toList)

/-! ### Configuration for pruning -/

/-- The units of a mutator: names with the current choices. -/
abbrev Units (V : Type) := List (String × V)

/-- mmrazor/models/mutators/channel_mutator/channel_mutator.py lines 216-227: one choice.  An
unknown name is a `KeyError`; a value the unit does not accept is an `AssertionError`. -/
def setOne {V : Type} (accept : String → V → Bool) (u : Units V) (n : String) (v : V) :
    Except Err (Units V) :=
  if u.any (fun p => p.1 == n) then
    if accept n v then .ok (u.map fun p => if p.1 = n then (p.1, v) else p)
    else .error .assertion
  else .error .key

/-- channel_mutator.py lines 216-227: all choices in turn.  Units are left as they are at the
first failure: the second component is the error. -/
def setChoices {V : Type} (accept : String → V → Bool) :
    Units V → List (String × V) → Units V × Option Err
  | u, [] => (u, none)
  | u, (n, v) :: cs =>
    match setOne accept u n v with
    | .error e => (u, some e)
    | .ok u' => setChoices accept u' cs

/-- tools/pruning/get_l1_prune_config.py lines 112-121: the choices written to the
configuration. -/
def pruneTarget {V : Type} (accept : String → V → Bool) (u : Units V)
    (subnet : Option (List (String × V))) : List (String × V) :=
  match subnet with
  | none => u
  | some cs =>
    match setChoices accept u cs with
    | (_, none) => cs
    | (u', some _) => u'

/-- The model part of a configuration: the checkpoint in `init_cfg`, the preprocessor and the
rest. -/
structure ArchCfg (D R : Type) where
  init : Option (List Char)
  preprocessor : Option D
  rest : R
deriving DecidableEq, Repr

/-- A configuration: the model and, if the key is there, the preprocessor (possibly `None`). -/
structure PruneCfg (D R : Type) where
  model : ArchCfg D R
  preprocessor : Option (Option D)
deriving DecidableEq, Repr

/-- tools/pruning/get_l1_prune_config.py lines 35-56: the architecture and the preprocessor of the
new configuration. -/
def wrapPrune {D R : Type} (c : PruneCfg D R) (checkpoint : Option (List Char)) : PruneCfg D R :=
  let m := match checkpoint with
    | none => c.model
    | some p => { c.model with init := some p }
  match c.preprocessor with
  | none => ⟨m, none⟩
  | some d => ⟨{ m with preprocessor := d }, some none⟩

/-! ### Publication -/

/-- tools/model_converters/publish_model.py lines 50-57: the keys removed. -/
def dropped : List String := ["optimizer", "message_hub", "param_schedulers"]

/-- publish_model.py lines 48-57: the checkpoint that is published. -/
def strip {V : Type} (c : List (String × V)) : List (String × V) :=
  c.filter fun p => !dropped.contains p.1

/-- What can be in a file. -/
inductive Content (V : Type) where
  | checkpoint : List (String × V) → Content V
  | text : String → Content V
deriving DecidableEq, Repr

/-- The files of the output directory, the last write first. -/
abbrev Files (V : Type) := List (String × Content V)

/-- publish_model.py lines 37-81: the files written to the output directory.  `tag` is the first
eight digits of the hash of a file, `log` and `json` the files of the run, if there (a missing file
raises `FileNotFoundError`, shown as a `ValueError`). -/
def publish {V : Type} (tag : List (String × V) → String) (name stamp : String)
    (c : List (String × V)) (log json : Option String) (out : Files V) :
    Files V × Option Err :=
  let base := name ++ "_" ++ stamp ++ "-" ++ tag (strip c)
  let out := (base ++ ".pth", .checkpoint (strip c)) :: out
  match log with
  | none => (out, some .value)
  | some l =>
    let out := (base ++ ".log", .text l) :: out
    match json with
    | none => (out, some .value)
    | some j => ((base ++ ".json", .text j) :: out, none)

/-! ### The curve of the learning rate -/

/-- `cfg.train_cfg`: `by_epoch` and `type`, if there. -/
structure TrainLoop where
  byEpoch : Option Bool
  type : Option String
deriving DecidableEq, Repr

/-- tools/visualizations/vis_scheduler.py lines 216-221: whether training counts epochs. -/
def byEpoch (t : TrainLoop) : Except Err Bool :=
  match t.byEpoch with
  | some b => .ok b
  | none =>
    match t.type with
    | some n => .ok (n == "EpochBasedTrainLoop")
    | none => .error .value

/-- vis_scheduler.py lines 214 and 223-232: iterations of one epoch of the simulation.  `built` is
the size of the dataset of the configuration; `--dataset-size 0` counts as one batch. -/
def simIters (batch ngpus : Nat) (byEpoch : Bool) (size : Option Nat) (built : Nat) :
    Except Err Nat :=
  let total := batch * ngpus
  let n := match size with
    | none => if byEpoch then built else total
    | some s => if s = 0 then total else s
  if total = 0 then .error .zeroDivision else .ok (n / total)

/-- Iterations of one epoch of the training itself: the samples of one process in batches. -/
def realIters (batch ngpus built : Nat) : Nat :=
  ((built + ngpus - 1) / ngpus + batch - 1) / batch

/-! ### Differences of feature maps -/

/-- feature_diff_visualization.py lines 129-164: the drawings made, by name; `m1` and `m2` are the
mappings with the feature maps recorded for them. -/
def drawings {F : Type} (m1 m2 : List (String × List F)) : List ((String × String × Nat) × F × F) :=
  (m1.zip m2).flatMap fun p =>
    ((p.1.2.zip p.2.2).zipIdx).map fun q => ((p.1.1, p.2.1, q.2), q.1.1, q.1.2)

/-- feature_diff_visualization.py lines 159-164: what is in `--out-file` at the end: every drawing
is written to it. -/
def outFile {F : Type} (ds : List ((String × String × Nat) × F × F)) :
    Option ((String × String × Nat) × F × F) :=
  ds.foldl (fun _ d => some d) none

/-- Whether one list of characters occurs in another (`'inference_' in name`). -/
def occurs (s : List Char) : List Char → Bool
  | [] => s.isEmpty
  | c :: cs => s.isPrefixOf (c :: cs) || occurs s cs

/-- feature_diff_visualization.py lines 91-96: the function used, among the sorted names of the
module: the last one whose name holds the given word. -/
def pick (word : List Char) (names : List (List Char)) : Option (List Char) :=
  names.foldl (fun acc n => if occurs word n then some n else acc) none

end Verif.CmdTools
