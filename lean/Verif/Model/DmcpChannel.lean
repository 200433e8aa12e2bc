import Verif.Model.ChannelUnit
import Mathlib.Analysis.SpecialFunctions.Exp

/-! Model of the channel distribution of DMCP:
`mmrazor/models/mutators/channel_mutator/dmcp_channel_mutator.py` (lines 77-180), the scaling in
`DMCPBatchNorm2d` (`models/architectures/dynamic_ops/bricks/dynamic_norm.py` lines 452-475) and
the use of the chosen numbers in the FLOPs counter of dynamic convolutions
(`task_modules/estimators/counters/op_counters/conv_layer_counter.py` lines 70-112).

Tensors hold exact reals; the pruning configuration is exact. -/

namespace Verif.DmcpChannel
open Verif SeqChannel

/-- `_generate_arch_message`, lines 77-98, for `pruning_cfg = (minRate, maxRate, offset)`, with
`_build_arch_param`, lines 52-54, which fails for a negative number of groups. The result is
`(group_size, num_groups, min_ch)`. -/
def archMessage (minRate maxRate offset : ℚ) (out : Nat) : Except Err (Int × Int × Int) :=
  if maxRate = 0 ∨ offset = 0 then .error .zeroDivision
  else
    let g := pyInt (offset * out / maxRate)
    let k := pyInt ((maxRate - minRate) / offset + 1 / 10000)
    let m := out - g * k
    if ¬ 0 < m then .error .assertion
    else if k < 0 then .error .runtime
    else .ok (g, k, m)

/-- An entry of `_arch_params_attr`: `(group_size, num_groups, min_ch)`. -/
structure Attr where
  g : Nat
  groups : Nat
  minCh : Nat
deriving DecidableEq, Repr

/-- `torch.exp(-torch.clamp(arch_param, min=0))`, lines 145-146 and dynamic_norm.py 461-462. -/
noncomputable def condProb (a : ℝ) : ℝ := Real.exp (-(max a 0))

/-- `torch.cumprod`, with the product so far. -/
def cumprod (acc : ℝ) : List ℝ → List ℝ
  | [] => []
  | p :: ps => acc * p :: cumprod (acc * p) ps

/-- The loop of the mode `direct`, lines 148-153: `us` are the draws of
`random.uniform(0, 1)`. -/
noncomputable def direct (g : Nat) : Nat → List ℝ → List ℝ → Nat
  | c, p :: ps, u :: us => if p < u then c else direct g (c + g) ps us
  | c, _, _ => c

/-- The `mode` argument. -/
inductive Mode where
  | max | min | random | direct | expected | other
deriving DecidableEq, Repr

/-- A sampled number of channels: an `int`, or a tensor in the mode `expected`. -/
inductive Choice where
  | num (k : Nat)
  | tensor (x : ℝ)

/-- The number itself. -/
def Choice.value : Choice → ℝ
  | .num k => k
  | .tensor x => x

/-- `_prune_by_arch`, lines 122-162; `r` is the draw of `random.randint(0, num_groups)`, `us`
are the draws of `random.uniform(0, 1)`. -/
noncomputable def prune (A : Attr) (arch : List ℝ) (mode : Mode) (r : Nat) (us : List ℝ) : Except Err Choice :=
  match mode with
  | .max => .ok (.num (A.minCh + A.g * A.groups))
  | .min => .ok (.num A.minCh)
  | .random => .ok (.num (A.minCh + A.g * r))
  | _ =>
    if A.groups = 0 then .ok (.num A.minCh)
    else match mode with
      | .direct => .ok (.num (direct A.g A.minCh (arch.map condProb) us))
      | .expected => .ok (.tensor ((cumprod 1 (arch.map condProb)).sum * A.g + A.minCh))
      | _ => .error .notImplemented

/-- `_ratio2num`, sequential_mutable_channel_unit.py lines 147-152: what is not an `int` is
taken for a ratio. -/
noncomputable def toNum (n : Nat) : Choice → Int
  | .num k => k
  | .tensor x => max 1 (if 0 ≤ n * x then ⌊n * x⌋ else ⌈n * x⌉)

/-- A `DMCPChannelUnit` with its default arguments, dmcp_channel_unit.py lines 31-37. -/
def unitCfg (n : Nat) : ChannelUnit.Cfg := ⟨n, false, 1, 1, 1 / 2⟩

/-- `module.current_choice = choice` in `set_choices`, line 178: the new mask. (The choice itself
is stored in `activated_tensor_channels`, line 179.) -/
noncomputable def setChoice (n : Nat) (c : Choice) : Except Err (List Bool) :=
  (ChannelUnit.mkDiv (unitCfg n) (toNum n c)).map (prefixMask n)

/-- `forward_arch_param`, dynamic_norm.py lines 452-475, on an input with `ch` channels of `len`
numbers each (over batch, height and width): the entries `c`, `j` with `c < ch`, `j < len` are
meant. `view(num_groups, -1)` cuts the flattened tensor into rows. -/
noncomputable def forward (A : Attr) (arch : List ℝ) (ch len : Nat) (x : Nat → Nat → ℝ) : Except Err (Nat → Nat → ℝ) :=
  if A.groups = 0 ∨ ch = A.minCh then .ok x
  else if A.g = 0 then .error .zeroDivision
  else
    let k := (ch - A.minCh) / A.g
    let total := (ch - A.minCh) * len
    if k = 0 ∨ total % k ≠ 0 then .error .runtime
    else if A.groups < k ∧ A.groups ≠ 1 then .error .runtime
    else
      let prob := cumprod 1 (arch.map condProb)
      let row := fun c j => if A.groups = 1 then 0 else ((c - A.minCh) * len + j) / (total / k)
      .ok fun c j => if c < A.minCh then x c j else x c j * prob.getD (row c j) 0

/-- The FLOPs of a convolution without bias and groups between two units,
conv_layer_counter.py lines 76-104: the input channels are counted in the mask, the output
channels are `activated_tensor_channels`; `k` is the product of the kernel size, the batch size
and the output size. -/
noncomputable def convFlops (k : ℝ) (inMask : List Bool) (out : Choice) : ℝ := k * popcount inMask * out.value

end Verif.DmcpChannel
