import Verif.Py
import Mathlib.Data.Real.Basic
import Mathlib.Data.Fintype.BigOperators
import Mathlib.Data.List.FinRange

/-! Model of the importance of channels in `mmrazor/implementations/pruning/group_fisher/ops.py` and
`unit.py`: recording, Fisher information and its normalisation. Numbers are exact. -/

namespace Verif.FisherInfo
open Verif

/-- What a layer has recorded: inputs and gradients of its input. -/
structure Rec (I G : Type) where
  inputs : List I
  grads : List G

/-- `forward_hook`, ops.py lines 24-26. -/
def Rec.forward {I G : Type} (r : Rec I G) (x : I) : Rec I G := { r with inputs := r.inputs ++ [x] }

/-- `backward_hook`, ops.py lines 33-34: the gradient is put in front. -/
def Rec.backward {I G : Type} (r : Rec I G) (g : G) : Rec I G := { r with grads := g :: r.grads }

/-- `reset_recorded`, ops.py lines 52-56. -/
def Rec.reset {I G : Type} (_ : Rec I G) : Rec I G := ⟨[], []⟩

/-- The check and the `zip` of `_fisher_of_a_module`, unit.py lines 171-175. -/
def Rec.pairs {I G : Type} (r : Rec I G) : Except Err (List (I × G)) :=
  if 0 < r.inputs.length ∧ r.inputs.length = r.grads.length then .ok (r.inputs.zip r.grads) else .error .assertion

/-- One recorded call: batch size `B`, `w` channels, any number of positions. -/
structure Call (B w : ℕ) where
  P : ℕ
  input : Fin B → Fin w → Fin P → ℝ
  grad : Fin B → Fin w → Fin P → ℝ

/-- The sum over the calls and over positions of input times gradient, unit.py lines 173-180. -/
noncomputable def fisherSum {B w : ℕ} (calls : List (Call B w)) (b : Fin B) (c : Fin w) : ℝ :=
  (calls.map fun k => ∑ p, k.input b c p * k.grad b c p).sum

/-- `torch.masked_scatter_` into zeros: the entries under the mask get the elements of the source one
after the other. -/
def scatter : List Bool → List ℝ → Except Err (List ℝ)
  | [], _ => .ok []
  | false :: m, s => do .ok (0 :: (← scatter m s))
  | true :: _, [] => .error .runtime
  | true :: m, x :: s => do .ok (x :: (← scatter m s))

/-- The expansion to all channels, unit.py lines 182-188, as one row after the other. -/
noncomputable def expand {B w : ℕ} (mask : List Bool) (s : Fin B → Fin w → ℝ) : Except Err (List ℝ) :=
  scatter (List.replicate B mask).flatten ((List.finRange B).flatMap fun b => (List.finRange w).map (s b))

/-- The entry of a channel in the expanded tensor. -/
noncomputable def entry (mask : List Bool) (flat : List ℝ) (b c : ℕ) : ℝ := flat.getD (b * mask.length + c) 0

/-- `current_batch_fisher`, unit.py lines 152-159, for the calls of each layer that reads the unit:
without such a layer the sum is the integer zero, which has no `sum`. -/
noncomputable def batchFisher {B w : ℕ} (mask : List Bool) (layers : List (List (Call B w))) : Except Err (ℕ → ℝ) := do
  let flats ← layers.mapM fun calls => expand mask (fisherSum calls)
  if flats = [] then .error .attribute
  else .ok fun c => ∑ b : Fin B, ((flats.map fun f => entry mask f b c).sum) ^ 2

/-- A layer: a convolution with the number of kernel positions, `groups`, `in_channels` and
`out_channels`, or linear. -/
inductive Kind where
  | conv (kk groups inC outC : ℕ)
  | linear

/-- A layer with the numbers of its unpruned channels and the recorded shapes of its outputs: channels,
height and width. -/
structure Op where
  kind : Kind
  inAct : ℕ
  outAct : ℕ
  shapes : List (ℕ × ℕ × ℕ)

/-- `delta_flop_of_a_out_channel`, ops.py lines 78-97 and 135-139. -/
def Op.deltaOut (o : Op) : Except Err ℕ :=
  match o.kind with
  | .linear => .ok (o.inAct * o.shapes.length)
  | .conv kk groups inC outC =>
    o.shapes.foldlM (fun (acc : ℕ) (s : ℕ × ℕ × ℕ) =>
      if groups = 1 then (.ok (acc + s.2.1 * s.2.2 * kk * o.inAct) : Except Err ℕ)
      else if groups = inC ∧ inC = outC then .ok (acc + s.2.1 * s.2.2 * kk)
      else .error .notImplemented) 0

/-- `delta_flop_of_a_in_channel`, ops.py lines 99-116 and 141-145. -/
def Op.deltaIn (o : Op) : Except Err ℕ :=
  match o.kind with
  | .linear => .ok (o.outAct * o.shapes.length)
  | .conv kk groups inC outC =>
    o.shapes.foldlM (fun (acc : ℕ) (s : ℕ × ℕ × ℕ) =>
      if groups = 1 then (.ok (acc + s.2.1 * s.2.2 * kk * s.1) : Except Err ℕ)
      else if groups = inC ∧ inC = outC then .ok (acc + s.2.1 * s.2.2 * kk)
      else .error .notImplemented) 0

/-- `delta_memory_of_a_out_channel`, ops.py lines 118-124 and 147-150. -/
def Op.deltaMemory (o : Op) : ℕ :=
  match o.kind with
  | .linear => o.shapes.length
  | .conv _ _ _ _ => (o.shapes.map fun s => s.2.1 * s.2.2).sum

/-- `_delta_flop_of_a_channel`, unit.py lines 214-222, for the layers writing and reading the unit. -/
def deltaFlop (outs ins : List Op) : Except Err ℕ := do
  let a ← outs.foldlM (fun (acc : ℕ) o => do .ok (acc + (← o.deltaOut))) 0
  ins.foldlM (fun (acc : ℕ) o => do .ok (acc + (← o.deltaIn))) a

/-- `_delta_memory_of_a_channel`, unit.py lines 224-230. -/
def deltaMemory (outs : List Op) : ℕ := (outs.map Op.deltaMemory).sum

/-- `normalization_type`. -/
inductive Norm where
  | flops | act | none'

/-- `_get_normalized_fisher_info`, unit.py lines 190-212. -/
noncomputable def normalise (outs ins : List Op) (f : ℕ → ℝ) : Norm → Except Err (ℕ → ℝ)
  | .flops =>
    match deltaFlop outs ins with
    | .error e => .error e
    | .ok d => if 0 < d then .ok fun c => f c / ((d : ℝ) / 1000000000) else .error .assertion
  | .act => if 0 < deltaMemory outs then .ok fun c => f c / ((deltaMemory outs : ℝ) / 1000000) else .error .assertion
  | .none' => .ok f

end Verif.FisherInfo
