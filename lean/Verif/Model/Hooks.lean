import Verif.Py
import Mathlib.Data.Rat.Defs
import Mathlib.Algebra.Order.Ring.Rat
import Mathlib.Data.List.Basic

/-! Model of the hooks that act at regular intervals or at the end of a training:
`DumpSubnetHook`, `EstimateResourcesHook`, `DMCPSubnetHook` and `RazorVisualizationHook`
(`mmrazor/engine/hooks`).

The order in which mmengine's epoch based training loop calls the hooks, and the values of
`runner.epoch` and `runner.iter` at these calls, are modelled from its documentation: both are
increased after the hooks of an epoch (an iteration) and before the validation that follows. -/

namespace Verif.Hooks
open Verif

/-- A training: batches per epoch, `max_epochs`, `val_interval`, `val_begin` and the number of
batches of the validation loader. -/
structure Train where
  iters : Nat
  maxEpochs : Nat
  valInterval : Nat
  valBegin : Nat
  valBatches : Nat
deriving DecidableEq, Repr

/-- The calls of hooks, with `runner.epoch` and `runner.iter`. -/
inductive Moment
  | beforeTrain (epoch : Nat)
  | afterIter (iter : Nat)
  | afterEpoch (epoch : Nat)
  | valIter (epoch iter batch : Nat)
  | valEpoch (epoch iter : Nat)
deriving DecidableEq, Repr

/-- Whether a validation follows after `e` epochs. -/
def Train.validates (t : Train) (e : Nat) : Bool := t.valBegin ≤ e && (e % t.valInterval == 0 || e == t.maxEpochs)

/-- The epoch with `runner.epoch = e` and the validation after it. -/
def Train.epoch (t : Train) (e : Nat) : List Moment :=
  (List.range' (e * t.iters) t.iters).map .afterIter ++ [.afterEpoch e] ++
    if t.validates (e + 1) then
      (List.range t.valBatches).map (.valIter (e + 1) ((e + 1) * t.iters)) ++ [.valEpoch (e + 1) ((e + 1) * t.iters)]
    else []

/-- The epochs from `start` to before `stop` of a training. -/
def Train.part (t : Train) (start stop : Nat) : List Moment :=
  .beforeTrain start :: (List.range' start (stop - start)).flatMap t.epoch

/-- A training that starts or resumes after `start` epochs. -/
def Train.run (t : Train) (start : Nat) : List Moment := t.part start t.maxEpochs

/-- `every_n_epochs` and `every_n_train_iters` of mmengine's `Hook`. -/
def everyN (x : Nat) (n : Int) : Bool := 0 < n && ((x : Int) + 1) % n == 0

/-! ### `DumpSubnetHook` -/

abbrev Path := List String

/-- The arguments, dump_subnet_hook.py lines 49-63; `tmpl` is `filename_tmpl`. -/
structure Dump where
  interval : Int
  byEpoch : Bool
  outDir : Option Path
  maxKeep : Int
  saveLast : Bool
  tmpl : Nat → String

/-- The state: `self.out_dir`, the subnet chosen in the model, the number of subnets drawn, and
the files written: folder, name and which draw it holds. -/
structure DumpSt where
  out : Option Path
  net : Nat
  draws : Nat
  files : List (Path × String × Nat)
deriving DecidableEq, Repr

/-- `before_train`, lines 65-86. -/
def DumpSt.beforeTrain (s : DumpSt) (work : Path) : DumpSt :=
  let out := s.out.getD work
  { s with out := some (if out ≠ work then out ++ [work.getLast?.getD ""] else out) }

/-- `_save_subnet`, lines 108-142: a subnet is drawn for a copy of the model. -/
def DumpSt.save (s : DumpSt) (h : Dump) (number : Nat) : DumpSt :=
  { s with draws := s.draws + 1, files := s.files ++ [(s.out.getD [], h.tmpl number, s.draws)] }

/-- The hook: lines 65, 91-106 and 144-169. -/
def Dump.call (h : Dump) (t : Train) (work : Path) (s : DumpSt) : Moment → DumpSt
  | .beforeTrain _ => s.beforeTrain work
  | .afterEpoch e =>
    if !h.byEpoch then s
    else if everyN e h.interval || (h.saveLast && e + 1 == t.maxEpochs) then s.save h (e + 1) else s
  | .afterIter i =>
    if h.byEpoch then s
    else if everyN i h.interval || (h.saveLast && i + 1 == t.maxEpochs * t.iters) then s.save h (i + 1) else s
  | _ => s

def Dump.start (h : Dump) : DumpSt := ⟨h.outDir, 0, 0, []⟩

/-! ### `EstimateResourcesHook` -/

/-- Whether resources are estimated at a call, estimate_resources_hook.py lines 53-82. -/
def estimates (interval : Int) (byEpoch : Bool) : Moment → Bool
  | .valEpoch e _ => byEpoch && everyN e interval
  | .valIter _ i _ => !byEpoch && everyN i interval
  | _ => false

/-! ### `DMCPSubnetHook` -/

/-- The condition of the `while` loop, dmcp_subnet_hook.py lines 59-60, in exact numbers. -/
def off (target flops : ℚ) : Bool := target * (105 / 100) < flops || flops < target * (95 / 100)

/-- The loop, lines 58-62, with at most `fuel` tests of the condition; `flops k` are the FLOPs of
the `k`-th subnet drawn in mode `direct`. The result: the number of subnets drawn. -/
def search (flops : Nat → ℚ) (target : ℚ) : Nat → ℚ → Nat → Option Nat
  | 0, _, _ => none
  | fuel + 1, cur, d => if off target cur then search flops target fuel (flops d) (d + 1) else some d

/-- What a file holds: the subnet drawn last (the `k`-th), or the one of mode `expected`. -/
inductive Content
  | direct (k : Nat)
  | expected
deriving DecidableEq, Repr

/-- One turn of the `for` loop, lines 57-74; `d` subnets were drawn before. -/
def turn (flops : Nat → ℚ) (target : ℚ) (num fuel i d : Nat) : Option ((String × Content) × Nat) :=
  match search flops target fuel (target * 10) d with
  | none => none
  | some d =>
    if i = num then some (("excepted_ch.json", .expected), d)
    else some ((s!"subnet_{i + 1}.json", .direct (d - 1)), d)

/-- The `for` loop over `is`. -/
def turns (flops : Nat → ℚ) (target : ℚ) (num fuel : Nat) : List Nat → Nat → Option (List (String × Content) × Nat)
  | [], d => some ([], d)
  | i :: is, d =>
    match turn flops target num fuel i d with
    | none => none
    | some (f, d) =>
      match turns flops target num fuel is d with
      | none => none
      | some (fs, d) => some (f :: fs, d)

/-- `after_run`, lines 41-74; `megaFlops` is `model.target_flops`. -/
def dmcpAfterRun (flops : Nat → ℚ) (megaFlops : ℚ) (num fuel : Nat) : Option (List (String × Content) × Nat) :=
  turns flops (megaFlops * 1000000) num fuel (List.range (num + 1)) 0

/-! ### `RazorVisualizationHook` -/

/-- A batch norm: its mode, running mean and momentum. -/
structure Bn where
  training : Bool
  mean : ℚ
  momentum : ℚ
deriving DecidableEq, Repr

/-- `test_step` on one image whose feature has mean `x`: the mean subtracted, and the layer
afterwards. -/
def Bn.forward (b : Bn) (x : ℚ) : ℚ × Bn :=
  if b.training then (x, { b with mean := (1 - b.momentum) * b.mean + b.momentum * x }) else (b.mean, b)

/-- `_visualize`, visualization_hook.py lines 137-200, over the images of `data_idx`: the means used
and the layer afterwards. -/
def visualize (b : Bn) : List ℚ → List ℚ × Bn
  | [] => ([], b)
  | x :: xs =>
    let (y, b) := b.forward x
    let (ys, b) := visualize b xs
    (y :: ys, b)

/-- `before_train` and `after_train_epoch`, lines 125-135: whether images are drawn. -/
def draws (enabled : Bool) (interval : Nat) : Moment → Except Err Bool
  | .beforeTrain e | .afterEpoch e =>
    if !enabled then .ok false else if interval = 0 then .error .zeroDivision else .ok (e % interval == 0)
  | _ => .ok false

end Verif.Hooks
