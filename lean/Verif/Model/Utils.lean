import Verif.Py
import Verif.Sort
import Verif.Float64
import Mathlib.Data.Rat.Defs
import Mathlib.Algebra.Order.Ring.Rat

/-! Model of the drawing of feature maps (`mmrazor/visualization/local_visualizer.py`)
and of the utilities `mmrazor/utils/runtime_info.py`, `setup_env.py` and `log_tools.py`. -/

namespace Verif.Utils
open Verif

/-- The values of one channel, by row and column. -/
abbrev Plane := Nat → Nat → ℚ

/-- A feature map: its height and width and its channels. -/
structure Feat where
  h : Nat
  w : Nat
  chans : List Plane

/-- The size a feature map is cropped to before it is scaled to the overlaid image,
local_visualizer.py lines 42-49. The divisions of floats are taken as exact. -/
def cropSize (h w oh ow : Nat) : Except Err (Nat × Nat) :=
  if w = 0 ∨ ow = 0 then .error .zeroDivision
  else if oh * w < h * ow then .ok (roundHalfEven (w * oh) ow, w)
  else if oh = 0 then .error .zeroDivision
  else .ok (h, roundHalfEven (h * ow) oh)

/-- `F.interpolate` of all channels to a size: it refuses empty inputs and outputs. The
values are those of `interp`, given the sizes before and after. -/
def scale (interp : Nat × Nat → Nat × Nat → Plane → Plane) (f : Feat) (size : Nat × Nat) : Except Err Feat :=
  if f.h = 0 ∨ f.w = 0 ∨ size.1 = 0 ∨ size.2 = 0 ∨ f.chans = [] then .error .runtime
  else .ok ⟨size.1, size.2, f.chans.map (interp (f.h, f.w) size)⟩

/-- Fitting the feature map to the overlaid image (given by its size) and to
`resize_shape`, local_visualizer.py lines 31-61. -/
def fit (interp : Nat × Nat → Nat × Nat → Plane → Plane) (f : Feat) (overlay resize : Option (Nat × Nat)) : Except Err Feat :=
  match resize with
  | some size => scale interp f size
  | none =>
    match overlay with
    | none => .ok f
    | some (oh, ow) =>
      if oh = f.h ∧ ow = f.w then .ok f
      else
        match cropSize f.h f.w oh ow with
        | .error e => .error e
        | .ok c => scale interp ⟨c.1, c.2, f.chans⟩ (oh, ow)

/-- `torch.sum(featmap, dim=(1, 2))` of one channel. -/
def total (h w : Nat) (p : Plane) : ℚ := ((List.range h).map fun i => ((List.range w).map fun j => p i j).sum).sum

/-- `torch.topk` of the sums: the positions of the largest, in descending order (equal
sums in the order of the channels; torch leaves their order open). -/
def topk (f : Feat) (k : Nat) : List Nat :=
  (sortBy (fun a b => decide (total f.h f.w (f.chans.getD b fun _ _ => 0) ≤ total f.h f.w (f.chans.getD a fun _ _ => 0)))
    (List.range f.chans.length)).take k

/-- `torch.max(featmap, dim=0)[0]`. -/
def pixelMax (c : Plane) (cs : List Plane) : Plane := fun i j => cs.foldl (fun a p => max a (p i j)) (c i j)

/-- `torch.mean(featmap, dim=0)`. -/
def pixelMean (cs : List Plane) : Plane := fun i j => (cs.map fun p => p i j).sum / cs.length

/-- What is drawn: one heat map of some planes, or a grid of panels, each with the
number of its channel. -/
inductive Drawn where
  | heat (h w : Nat) (planes : List Plane)
  | grid (row col : Int) (h w : Nat) (panels : List (Nat × Plane))

/-- The reduction of the channels, local_visualizer.py lines 63-77. -/
def reduce (f : Feat) (mode : String) : Except Err Drawn :=
  if mode = "select_max" then
    match topk f 1 with
    | [] => .error .runtime
    | i :: _ => .ok (.heat f.h f.w [f.chans.getD i fun _ _ => 0])
  else if mode = "squeeze_mean" then .ok (.heat f.h f.w [pixelMean f.chans])
  else if mode = "pixel_wise_max" then
    match f.chans with
    | [] => .error .index
    | c :: cs => .ok (.heat f.h f.w [pixelMax c cs])
  else .error .assertion

/-- `modify`, local_visualizer.py lines 15-122: the drawing of a feature map. `master`
says whether the process is the main one (`master_only`). -/
def modify (interp : Nat × Nat → Nat × Nat → Plane → Plane) (master : Bool) (f : Feat) (overlay : Option (Nat × Nat))
    (reduction : Option String) (k : Int) (row col : Int) (resize : Option (Nat × Nat)) : Except Err (Option Drawn) :=
  if !master then .ok none
  else
    match fit interp f overlay resize with
    | .error e => .error e
    | .ok g =>
      match reduction with
      | some mode =>
        match reduce g mode with
        | .error e => .error e
        | .ok d => .ok (some d)
      | none =>
        if k ≤ 0 then
          if g.chans.length = 1 ∨ g.chans.length = 3 then .ok (some (.heat g.h g.w g.chans)) else .error .assertion
        else if row * col < k then .error .assertion
        else .ok (some (.grid row col g.h g.w
          ((topk g (min g.chans.length k.toNat)).map fun i => (i, g.chans.getD i fun _ _ => 0))))

/-- `RuntimeInfo.get_info`, runtime_info.py lines 15-21, for the numbers of the hub. -/
def getInfo (info : List (String × Int)) (key : String) : Except Err Int :=
  match info.lookup key with
  | some v => .ok v
  | none => .error .key

/-- `RuntimeInfo.iter_pre_epoch`, runtime_info.py lines 44-47: `math.ceil` of a quotient
taken as exact. -/
def iterPerEpoch (info : List (String × Int)) : Except Err Int :=
  match getInfo info "max_iters" with
  | .error e => .error e
  | .ok a =>
    match getInfo info "max_epochs" with
    | .error e => .error e
    | .ok b => if b = 0 then .error .zeroDivision else .ok (-((-a).fdiv b))

/-- `RuntimeInfo.iter_by_epoch`, runtime_info.py lines 39-42. -/
def iterByEpoch (info : List (String × Int)) : Except Err Int :=
  match iterPerEpoch info with
  | .error e => .error e
  | .ok n =>
    match getInfo info "iter" with
    | .error e => .error e
    | .ok i => if n = 0 then .error .zeroDivision else .ok (i.fmod n)

/-- The environment of a process: the variables of the environment, and the threads of
opencv. -/
structure Env where
  vars : List (String × String)
  cv : Int
deriving DecidableEq, Repr

/-- The part of a configuration `setup_multi_processes` reads: `opencv_num_threads` and
`data.workers_per_gpu`, where the section `data` or its entry may be missing. -/
structure MpCfg where
  cv : Option Int
  workers : Option Int
deriving DecidableEq, Repr

/-- Setting one of the thread variables, setup_env.py lines 30-49. -/
def setThreads (cfg : MpCfg) (name : String) (e : Env) : Except Err Env :=
  if (e.vars.lookup name).isSome then .ok e
  else
    match cfg.workers with
    | none => .error .attribute
    | some n => if 1 < n then .ok { e with vars := (name, "1") :: e.vars } else .ok e

/-- `setup_multi_processes`, setup_env.py lines 12-49, without the start method of
processes. -/
def setup (cfg : MpCfg) (e : Env) : Except Err Env :=
  match setThreads cfg "OMP_NUM_THREADS" { e with cv := cfg.cv.getD 0 } with
  | .error x => .error x
  | .ok e' => setThreads cfg "MKL_NUM_THREADS" e'

/-- The default scopes of a process, in the order they were created: the name of the
instance and of the scope. The last one is the current one (mmengine). -/
abbrev Scopes := List (String × String)

/-- `DefaultScope.get_current_instance`. -/
def current (s : Scopes) : Option String := s.getLast?.map (·.2)

/-- `DefaultScope.get_instance`: an existing name is returned as it is. -/
def getInstance (s : Scopes) (name scope : String) : Scopes :=
  if name ∈ s.map (·.1) then s else s ++ [(name, scope)]

/-- `register_all_modules`, setup_env.py lines 52-88; `now` is the printed time. -/
def registerAll (init : Bool) (now : String) (s : Scopes) : Scopes :=
  if !init then s
  else if s = [] ∨ "mmrazor" ∉ s.map (·.1) then getInstance s "mmrazor" "mmrazor"
  else if current s ≠ some "mmrazor" then getInstance s ("mmrazor-" ++ now) "mmrazor"
  else s

/-- A level as it is given: a string, a number or something else. -/
inductive Level where
  | name (s : String)
  | number (n : Int)
  | other
deriving DecidableEq, Repr

/-- `logging._nameToLevel`. -/
def levels : List (String × Int) :=
  [("CRITICAL", 50), ("FATAL", 50), ("ERROR", 40), ("WARN", 30), ("WARNING", 30), ("INFO", 20), ("DEBUG", 10), ("NOTSET", 0)]

/-- `get_level`, log_tools.py lines 9-18; `upper` is the string in upper case. -/
def getLevel (upper : String → String) : Level → Except Err Int
  | .name s =>
    match levels.lookup (upper s) with
    | some n => .ok n
    | none => .error .assertion
  | .number n => .ok n
  | .other => .error .notImplemented

/-- `print_log`, log_tools.py lines 21-29: `rank` is the rank when processes are
distributed; the level of the message that is printed, if one is. -/
def printLog (upper : String → String) (only0 : Bool) (rank : Option Nat) (l : Level) : Except Err (Option Int) :=
  if only0 && rank.isSome then
    if rank = some 0 then
      match getLevel upper l with
      | .error e => .error e
      | .ok n => .ok (some n)
    else .ok none
  else
    match getLevel upper l with
    | .error e => .error e
    | .ok n => .ok (some n)

/-- A logger: its level and those of its handlers (the stream first, then the files). -/
structure Logger where
  level : Int
  handlers : List Int
deriving DecidableEq, Repr

/-- `set_log_level`, log_tools.py lines 32-37. -/
def setLogLevel (upper : String → String) (l : Level) (g : Logger) : Except Err Logger :=
  match getLevel upper l with
  | .error e => .error e
  | .ok n =>
    match g.handlers with
    | [] => .error .index
    | _ :: hs => .ok ⟨n, n :: hs⟩

/-- Whether a handler writes a message. -/
def Logger.writes (g : Logger) (handler : Nat) (level : Int) : Bool :=
  match g.handlers[handler]? with
  | none => false
  | some h => decide (g.level ≤ level) && decide (h ≤ level)

end Verif.Utils
