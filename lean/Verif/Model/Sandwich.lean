import Verif.Py
import Mathlib.Algebra.Module.Defs
import Mathlib.Algebra.Order.Ring.Rat
import Mathlib.Data.List.Basic

/-! Model of the training steps that train several subnets on each batch: AutoSlim
(`mmrazor/models/algorithms/nas/autoslim.py`), BigNAS (`nas/bignas.py`) and slimmable
networks (`pruning/slimmable_network.py`), with `reinitialize_optim_wrapper_count_status`
(`models/utils/optim_wrapper.py` lines 7-30).

The gradient accumulation of mmengine's `OptimWrapper` is modelled from its documentation;
it is not part of the repository. Gradients are functions of the subnet, the batch and the
weights; the recorded outputs of the teacher are represented by the subnet, batch and
weights that produced them. Running statistics of normalisation layers are left out. -/

namespace Verif.Sandwich
open Verif

/-- The counters of `OptimWrapper`: `accumulative_counts`, `_inner_count`, `_max_counts`. -/
structure Counter where
  acc : Nat
  inner : Nat
  max : Nat
deriving DecidableEq, Repr

/-- `OptimWrapper.scale_loss`: the number the loss is divided by. The last, shorter window
is divided by its own length. -/
def Counter.factor (c : Counter) : Except Err Nat :=
  if c.acc = 1 then .ok 1
  else
    let f := if c.inner < c.max - c.max % c.acc then c.acc else c.max % c.acc
    if 0 < f then .ok f else .error .assertion

/-- `OptimWrapper.should_update`. -/
def Counter.shouldUpdate (c : Counter) : Bool := c.inner % c.acc == 0 || c.inner == c.max

/-- The three algorithms. -/
inductive Algo where
  | autoslim
  | bignas
  | slimmable
deriving DecidableEq, Repr

/-- `sample_kinds` (autoslim.py lines 71-73, bignas.py lines 78-80); for a slimmable network
one entry per configured subnet (slimmable_network.py line 103). -/
inductive Kind where
  | max
  | min
  | random (i : Nat)
  | subnet (i : Nat)
deriving DecidableEq, Repr

/-- The kinds trained in each iteration; `n` is the number of random samples, or of
subnets. -/
def kinds : Algo → Nat → List Kind
  | .slimmable, n => (List.range n).map .subnet
  | _, n => .max :: .min :: (List.range n).map .random

/-- What a training run is about. `hard` and `soft` are the gradients of the task loss and
of the distillation loss, `opt` is the optimizer. -/
structure Task (N B W O : Type) where
  algo : Algo
  num : Nat
  acc : Nat
  maxIters : Nat
  hard : N → B → W → W
  soft : N → B → N × B × W → W → W
  opt : O → W → W → O × W

/-- The state: weights, optimizer, accumulated gradient, counters,
`_optim_wrapper_count_status_reinitialized`, what the teacher recorders hold, and all forward
passes so far. -/
structure St (N B W O : Type) where
  w : W
  o : O
  g : W
  c : Counter
  ready : Bool
  teacher : Option (N × B × W)
  log : List (N × B × W)

variable {N B W O : Type} [AddCommGroup W] [Module ℚ W]

/-- `OptimWrapper.update_params`. -/
def St.update (t : Task N B W O) (s : St N B W O) (grad : W) : Except Err (St N B W O) :=
  match s.c.factor with
  | .error e => .error e
  | .ok f =>
    let g := s.g + (1 / (f : ℚ)) • grad
    let c := { s.c with inner := s.c.inner + 1 }
    if c.shouldUpdate then .ok { s with w := (t.opt s.o s.w g).2, o := (t.opt s.o s.w g).1, g := 0, c := c }
    else .ok { s with g := g, c := c }

/-- `distill_step`, autoslim.py lines 104-119 (task loss and distillation loss) and bignas.py
lines 110-124 (distillation loss only). -/
def St.distillStep (t : Task N B W O) (s : St N B W O) (net : N) (b : B) : Except Err (St N B W O) :=
  match s.teacher with
  | none => .error .assertion
  | some r =>
    let soft := t.soft net b r s.w
    let grad := match t.algo with
      | .bignas => soft
      | _ => t.hard net b s.w + soft
    St.update t { s with log := s.log ++ [(net, b, s.w)] } grad

/-- The body of the loop over the kinds, autoslim.py lines 134-158, bignas.py lines 137-177,
slimmable_network.py lines 103-109. `pick` gives the subnet that is selected. -/
def St.train (t : Task N B W O) (pick : Kind → N) (b : B) (s : St N B W O) (k : Kind) : Except Err (St N B W O) :=
  match k with
  | .max =>
    St.update t { s with teacher := some (pick k, b, s.w), log := s.log ++ [(pick k, b, s.w)] } (t.hard (pick k) b s.w)
  | .subnet _ => St.update t { s with log := s.log ++ [(pick k, b, s.w)] } (t.hard (pick k) b s.w)
  | _ => s.distillStep t (pick k) b

/-- `reinitialize_optim_wrapper_count_status`, called in the first training step of the
process; `it` is the current iteration. -/
def St.reinit (t : Task N B W O) (it : Nat) (s : St N B W O) : St N B W O :=
  if s.ready then s
  else { s with ready := true, c := ⟨t.acc, it * (kinds t.algo t.num).length, t.maxIters * (kinds t.algo t.num).length⟩ }

/-- `train_step`. -/
def St.step (t : Task N B W O) (it : Nat) (pick : Kind → N) (b : B) (s : St N B W O) : Except Err (St N B W O) :=
  (kinds t.algo t.num).foldlM (St.train t pick b) (s.reinit t it)

/-- Iterations `it`, `it + 1`, ... over the given batches and selections. -/
def St.run (t : Task N B W O) : Nat → List ((Kind → N) × B) → St N B W O → Except Err (St N B W O)
  | _, [], s => .ok s
  | it, (pick, b) :: rest, s => do
    let s ← s.step t it pick b
    s.run t (it + 1) rest

/-- A new process with given weights and optimizer state, as loaded from a checkpoint or
newly built; the runner has initialised the counters with iteration numbers. -/
def fresh (t : Task N B W O) (it : Nat) (w : W) (o : O) : St N B W O :=
  ⟨w, o, 0, ⟨t.acc, it, t.maxIters⟩, false, none, []⟩

/-! ### The reported losses -/

abbrev Name := List Char

/-- The prefix of the losses of a kind: autoslim.py lines 145, 151, 157, and
slimmable_network.py line 110. -/
def Kind.prefix : Kind → Name
  | .max => "max_subnet".toList
  | .min => "min_subnet".toList
  | .random i => "random".toList ++ Nat.toDigits 10 i ++ "_subnet".toList
  | .subnet i => "subnet_".toList ++ Nat.toDigits 10 i

/-- Item assignment of a `dict`. -/
def put {V : Type} (d : List (Name × V)) (k : Name) (v : V) : List (Name × V) :=
  if d.any (·.1 == k) then d.map (fun p => if p.1 == k then (k, v) else p) else d ++ [(k, v)]

/-- `dict.update`. -/
def update {V : Type} (d e : List (Name × V)) : List (Name × V) := e.foldl (fun d p => put d p.1 p.2) d

/-- `add_prefix`, models/utils/misc.py lines 5-20. -/
def addPrefix {V : Type} (l : List (Name × V)) (p : Name) : List (Name × V) :=
  l.foldl (fun d x => put d (p ++ '.' :: x.1) x.2) []

/-- `total_losses`: the losses of each kind. -/
def total {V : Type} (losses : Kind → List (Name × V)) (ks : List Kind) : List (Name × V) :=
  ks.foldl (fun d k => update d (addPrefix (losses k) k.prefix)) []

/-! ### Stochastic depth -/

/-- A block of a layer: whether it is of the given class, and its `drop_path_rate`. -/
structure Block where
  isMb : Bool
  rate : ℚ
deriving DecidableEq, Repr

/-- The loop over the blocks of one layer, set_dropout.py lines 32-36; `before` is
`visited_block_nums - mblayer_nums`. -/
def dropLayer (rate : ℚ) (before total : Nat) (layer : List Block) : List Block :=
  layer.mapIdx fun i b => if b.isMb then { b with rate := rate * (((before + i : Nat) : ℚ) / total) } else b

/-- The loop over the layers, lines 23-36; `idx` starts at one. -/
def dropLayers (stages : List Nat) (rate : ℚ) (total : Nat) : Nat → Nat → List (List Block) → List (List Block)
  | _, _, [] => []
  | idx, visited, layer :: rest =>
    (if idx ∈ stages then dropLayer rate visited total layer else layer) ::
      dropLayers stages rate total (idx + 1) (visited + layer.countP (·.isMb)) rest

/-- `set_dropout`, models/architectures/utils/set_dropout.py lines 7-36. -/
def setDropout (stages : List Nat) (rate : ℚ) (layers : List (List Block)) : List (List Block) :=
  dropLayers stages rate (layers.map fun l => l.countP (·.isMb)).sum 1 0 layers

/-- The rate used for a kind, bignas.py lines 140-144, 157-161, 169-173. -/
def Kind.rate (dropPathRate : ℚ) : Kind → ℚ
  | .max => dropPathRate
  | _ => 0

end Verif.Sandwich
