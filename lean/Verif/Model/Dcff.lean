import Verif.Py
import Mathlib.Analysis.SpecialFunctions.Log.Basic
import Mathlib.Analysis.SpecialFunctions.Sqrt
import Mathlib.Data.Fintype.BigOperators
import Mathlib.Data.List.FinRange

/-! Model of filter fusion: `DCFF` in `mmrazor/models/algorithms/pruning/dcff.py`, `FuseConvMixin` in
`mmrazor/models/architectures/dynamic_ops/mixins/dynamic_conv_mixins.py` and `calc_information` in
`mmrazor/models/mutators/channel_mutator/dcff_channel_mutator.py`. Numbers are exact. -/

namespace Verif.Dcff
open Verif

/-- `DCFF._calc_temperature`, dcff.py lines 68-77. -/
noncomputable def temperature (cur max : ℕ) : Except Err ℝ :=
  let d := 1 - Real.exp (-(1 * (max : ℝ)))
  if d = 0 then .error .zeroDivision
  else
    let A := 2 * (10000 - 1) * (1 + Real.exp (-(1 * (max : ℝ)))) / d
    let T := A / (1 + Real.exp (-(1 * (cur : ℝ)))) + 1 - A / 2
    if T = 0 then .error .zeroDivision else .ok (1 / T)

/-- `DCFF._legal_freq_time`, dcff.py lines 79-87. -/
def legal (maxIters f : ℚ) : Bool := decide (0 < f) && decide (f < maxIters)

/-- The choice of the step and of the number of prunings in `DCFF._init_prune_config_manager`, dcff.py
lines 100-114. `_max_epochs` is 1 for a loop over iterations; the division is exact here. -/
def schedule (stepFreq pruneTimes : ℚ) (maxIters maxEpochs : ℕ) : Except Err (ℚ × ℚ) :=
  let step := if maxEpochs ≠ 1 then stepFreq * ((maxIters : ℚ) / maxEpochs) else stepFreq
  if legal maxIters step ^^ legal maxIters pruneTimes then
    if legal maxIters step then .ok (step, (⌊(maxIters : ℚ) / step⌋ : ℚ))
    else .ok ((⌊(maxIters : ℚ) / pruneTimes⌋ : ℚ), pruneTimes)
  else .error .runtime

/-- `ItePruneConfigManager.is_prune_time`, ite_prune_algorithm.py lines 54-57. -/
def pruneTime (s : ℚ × ℚ) (it : ℕ) : Bool :=
  decide ((it : ℚ) - s.1 * ⌊(it : ℚ) / s.1⌋ = 0) && decide ((⌊(it : ℚ) / s.1⌋ : ℚ) < s.2)

/-- `torch.cdist(w, w, p=2)`, dynamic_conv_mixins.py line 549, for filters flattened to rows. -/
noncomputable def dist {c : ℕ} {ι : Type} [Fintype ι] (w : Fin c → ι → ℝ) (i k : Fin c) : ℝ :=
  Real.sqrt (∑ x, (w i x - w k x) ^ 2)

/-- `softmax(-dist / tau)` along dimension 1, dynamic_conv_mixins.py lines 550-552. -/
noncomputable def pooled {c : ℕ} {ι : Type} [Fintype ι] (w : Fin c → ι → ℝ) (tau : ℝ) (i k : Fin c) : ℝ :=
  Real.exp (-dist w i k / tau) / ∑ l, Real.exp (-dist w i l / tau)

/-- The constant of dynamic_conv_mixins.py line 560. -/
noncomputable def eps : ℝ := 1 / 10 ^ 7

/-- `layeri_iscore_kl`, dynamic_conv_mixins.py lines 561-569. The mean along dimension 1 gives a number
for each row, which is then broadcast along the last dimension. -/
noncomputable def score {c : ℕ} (p : Fin c → Fin c → ℝ) (i : Fin c) : ℝ :=
  (∑ k, (p i k * Real.log (p i k + eps) - p i k * ((∑ l, Real.log (p k l + eps)) / c))) / c

/-- What `torch.topk` returns for the scores and the number asked for. -/
abbrev TopK (c : ℕ) : Type := (Fin c → ℝ) → ℕ → List (Fin c)

/-- A `FuseConv2d`: weight of shape (`cout`, `wIn`, kernel), `wIn = in_channels / groups`, the masks of
its mutable channels when registered, and the `choice` that `set_forward_args` binds. -/
structure FuseConv where
  cout : ℕ
  wIn : ℕ
  kk : ℕ
  inChannels : ℕ
  groups : ℕ
  weight : Fin cout → Fin wIn → Fin kk → ℝ
  bias : Option (Fin cout → ℝ)
  inMask : Option (List Bool)
  outMask : Option (List Bool)
  choice : Option (List (Fin cout → ℝ))

/-- Weight and bias used in the forward pass. -/
structure Params where
  rows : ℕ
  cin : ℕ
  kk : ℕ
  weight : Fin rows → Fin cin → Fin kk → ℝ
  bias : Option (Fin rows → ℝ)

/-- The filters of a layer as rows, dynamic_conv_mixins.py line 548. -/
def FuseConv.flat (m : FuseConv) (i : Fin m.cout) (x : Fin m.wIn × Fin m.kk) : ℝ := m.weight i x.1 x.2

/-- `get_pooled_channel`, dynamic_conv_mixins.py lines 534-574: without a mutable for the output the
lookup fails, and `torch.topk` refuses more than there are. -/
noncomputable def FuseConv.getPooled (m : FuseConv) (topk : TopK m.cout) (tau : ℝ) :
    Except Err (List (Fin m.cout → ℝ)) :=
  match m.outMask with
  | none => .error .key
  | some mask =>
    let k := mask.count true
    if m.cout < k then .error .runtime
    else .ok ((topk (score (pooled m.flat tau)) k).map (pooled m.flat tau))

/-- `set_forward_args`, dynamic_conv_mixins.py lines 421-428. -/
def FuseConv.setForwardArgs (m : FuseConv) (ch : List (Fin m.cout → ℝ)) : FuseConv := { m with choice := some ch }

/-- One layer of `DCFFChannelMutator.calc_information`, dcff_channel_mutator.py lines 43-49. -/
noncomputable def FuseConv.calcInformation (m : FuseConv) (topk : TopK m.cout) (tau : ℝ) : Except Err FuseConv := do
  .ok (m.setForwardArgs (← m.getPooled topk tau))

/-- A mask as the list of the kept indices. -/
def kept (n : ℕ) (mask : Option (List Bool)) : List (Fin n) :=
  (List.finRange n).filter fun i => match mask with
    | none => true
    | some m => m.getD i false

/-- `DynamicConvMixin._get_dynamic_params_by_mutable_channels`, dynamic_conv_mixins.py lines 147-195, in
use as long as no `choice` is bound. Layers with several groups that are not depthwise are left out
(they are part of C27). -/
def FuseConv.sliced (m : FuseConv) : Except Err Params :=
  let outs := kept m.cout m.outMask
  if m.groups = 1 then
    let ins := kept m.wIn m.inMask
    .ok ⟨outs.length, ins.length, m.kk, fun o i => m.weight (outs.get o) (ins.get i),
      m.bias.map fun b o => b (outs.get o)⟩
  else if m.groups = m.inChannels ∧ m.inChannels = m.cout then
    .ok ⟨outs.length, m.wIn, m.kk, fun o => m.weight (outs.get o), m.bias.map fun b o => b (outs.get o)⟩
  else .error .notImplemented

/-- The number of channels under a mask, the full number when there is no mask or nothing under it,
dynamic_conv_mixins.py lines 454-468. -/
def active (mask : Option (List Bool)) (full : ℕ) : ℕ :=
  match mask with
  | none => full
  | some m => if m.count true = 0 then full else m.count true

/-- The matrix product with the rows of `choice`, dynamic_conv_mixins.py lines 475-495, for the first
`n` input channels. -/
noncomputable def FuseConv.fused (m : FuseConv) (n : ℕ) (ch : List (Fin m.cout → ℝ)) : Params :=
  ⟨ch.length, min n m.wIn, m.kk,
    fun o i x => ∑ f, ch.get o f * m.weight f (i.castLE (Nat.min_le_right _ _)) x,
    m.bias.map fun b o => ∑ f, ch.get o f * b f⟩

/-- `get_dynamic_params`, dynamic_conv_mixins.py lines 430-497. -/
noncomputable def FuseConv.params (m : FuseConv) : Except Err Params :=
  match m.choice with
  | none => m.sliced
  | some ch =>
    let nIn := active m.inMask m.inChannels
    let nOut := active m.outMask m.cout
    if nIn = m.inChannels ∧ nOut = m.cout then .ok ⟨m.cout, m.wIn, m.kk, m.weight, m.bias⟩
    else if m.groups = 1 then .ok (m.fused nIn ch)
    else if m.groups = m.inChannels ∧ m.inChannels = m.cout then .ok (m.fused nIn ch)
    else .error .notImplemented

/-- The arguments of the static convolution. -/
structure Static where
  inChannels : ℕ
  outChannels : ℕ
  groups : ℕ
  params : Params

/-- `to_static_op`, dynamic_conv_mixins.py lines 499-532, for fixed mutables. -/
noncomputable def FuseConv.toStatic (m : FuseConv) : Except Err Static := do
  let p ← m.params
  let groups := if m.groups = m.inChannels ∧ m.inChannels = m.cout then
    match m.inMask with
    | none => m.groups
    | some mask => mask.count true else m.groups
  .ok ⟨p.cin * groups, p.rows, groups, p⟩

end Verif.Dcff
