import Verif.Py
import Mathlib.Data.Rat.Defs

/-! Model of `mmrazor/models/algorithms/quantization/mm_architecture.py`: one quantised graph for
every forward mode, and how their quantisation parameters are kept in step.

A mode and a path of a module are numbers. The modules of a graph are listed in the order of the
recursive traversal, with their full names; shared modules are not modelled. A tensor is the list of
its numbers. -/

namespace Verif.QuantModes
open Verif

/-- A fake quantiser: `scale`, `zero_point`, its switches, the buffers of its observer (empty when
reset), and whether the observer is a `MinMaxObserver` or `PerChannelMinMaxObserver`. -/
structure Fq where
  scale : List ℚ
  zp : List ℚ
  flags : List ℚ
  stats : List ℚ
  minmax : Bool
deriving DecidableEq

/-- An entry of `_modules`: a fake quantiser, `None`, or another module with its tensors. -/
inductive Slot where
  | fq (q : Fq)
  | absent
  | other (w : List ℚ)
deriving DecidableEq

/-- A graph: full names and modules. -/
abbrev Graph := List (ℕ × Slot)

/-- The graphs in `qmodels` by mode. -/
abbrev Models := ℕ → Option Graph

/-- The fake quantiser of that name in a graph. -/
def find (g : Graph) (path : ℕ) : Option Fq :=
  match g.lookup path with
  | some (.fq q) => some q
  | _ => none

/-- One module in `traverse` of `sync_qparams`, lines 124-152. The test for `None` in line 126 asks
for the parent, so a missing child is traversed and has no `_modules`. The tensors of a fake quantiser
are looked up by name: they exist if the source has a fake quantiser with the same sort of observer
there. Resizing and copying gives the tensor of the source in both branches. -/
def syncOne (src : Graph) : ℕ × Slot → Except Err (ℕ × Slot)
  | (p, .absent) => .error .attribute
  | (p, .other w) => .ok (p, .other w)
  | (p, .fq q) =>
    match find src p with
    | none => .error .key
    | some s =>
      if s.minmax = q.minmax then
        .ok (p, .fq { q with scale := s.scale, zp := s.zp, flags := s.flags, stats := s.stats })
      else .error .key

/-- The loop over the other modes, lines 155-158. -/
def syncModes (src : ℕ) (state : Graph) : List ℕ → Models → Except Err Models
  | [], ms => .ok ms
  | m :: rest, ms =>
    if m = src then syncModes src state rest ms
    else
      match ms m with
      | none => .error .key
      | some g =>
        match g.mapM (syncOne state) with
        | .error e => .error e
        | .ok g' => syncModes src state rest (Function.update ms m (some g'))

/-- `sync_qparams`, lines 107-158. -/
def sync (modes : List ℕ) (src : ℕ) (ms : Models) : Except Err Models :=
  match ms src with
  | none => .error .key
  | some state => syncModes src state modes ms

/-- `reset_observer_and_fakequant_statistics`, lines 94-105, for one module: `reset_min_max_vals`
exists for observers with minimum and maximum only. -/
def resetOne : ℕ × Slot → ℕ × Slot
  | (p, .fq q) =>
    (p, .fq { q with scale := q.scale.map fun _ => 1, zp := q.zp.map fun _ => 0, stats := if q.minmax then [] else q.stats })
  | s => s

/-- `reset_observer_and_fakequant_statistics`: the modules of all graphs. -/
def reset (ms : Models) : Models := fun m => (ms m).map fun g => g.map resetOne

/-- What a batch does to the fake quantisers of the graph it runs through; the behaviour of torch is a
parameter. -/
abbrev Effect := ℕ → ℕ → Fq → Fq

/-- A graph runs on a batch. -/
def runGraph (f : Effect) (x : ℕ) (g : Graph) : Graph :=
  g.map fun ps => match ps with
    | (p, .fq q) => (p, .fq (f x p q))
    | s => s

/-- `forward`, lines 319-329: the graph of the mode runs, or the float model if the mode has none
(`false`). -/
def forward (f : Effect) (mode x : ℕ) (ms : Models) : Bool × Models :=
  match ms mode with
  | some g => (true, Function.update ms mode (some (runGraph f x g)))
  | none => (false, ms)

/-- The three modes. -/
def tensor : ℕ := 0
/-- The mode of `calibrate_step`. -/
def predict : ℕ := 1
/-- The mode of training. -/
def loss : ℕ := 2

/-- `_build_qmodels`, lines 256-317, with `prepare` giving the graph of a mode: one graph for every
mode, then a dummy input through the `tensor` graph. -/
def buildModels (f : Effect) (prepare : ℕ → Graph) (modes : List ℕ) (dummy : ℕ) : Except Err Models :=
  let ms : Models := fun m => if m ∈ modes then some (prepare m) else none
  match ms tensor with
  | none => .error .key
  | some _ => .ok (forward f tensor dummy ms).2

/-- The end of `__init__`, lines 90-92. -/
def create (f : Effect) (prepare : ℕ → Graph) (modes : List ℕ) (dummy : ℕ) : Except Err Models :=
  match buildModels f prepare modes dummy with
  | .error e => .error e
  | .ok ms =>
    match sync modes tensor ms with
    | .error e => .error e
    | .ok ms => .ok (reset ms)

/-- The batches of one mode. -/
def runAll (f : Effect) (mode : ℕ) (xs : List ℕ) (ms : Models) : Models :=
  xs.foldl (fun ms x => (forward f mode x ms).2) ms

/-- An epoch of `QATEpochBasedLoop` or `LSQEpochBasedLoop`, quantization_loops.py lines 111-124 and
183-213, as far as the graphs are concerned: training batches, then the parameters are synchronised. -/
def epoch (f : Effect) (modes : List ℕ) (xs : List ℕ) (ms : Models) : Except Err Models :=
  sync modes loss (runAll f loss xs ms)

/-- Epochs of training. -/
def train (f : Effect) (modes : List ℕ) : List (List ℕ) → Models → Except Err Models
  | [], ms => .ok ms
  | xs :: rest, ms =>
    match epoch f modes xs ms with
    | .error e => .error e
    | .ok ms => train f modes rest ms

/-- Calibration in `PTQLoop`, quantization_loops.py lines 343-382, with `calibrate_step`, lines
331-335. -/
def calibrate (f : Effect) (xs : List ℕ) (ms : Models) : Models := runAll f predict xs ms

end Verif.QuantModes
