import Verif.Model.QParams
import Verif.Model.GptqQuantizer

/-! Model of the preparation of quantised models for deployment: `TorchNativeQuantizer.post_process_for_deploy`,
`mmrazor/models/quantizers/native_quantizer.py` lines 253-328, `QConfigHandler.fixed_w_fakequant` and
`replace_fakequant`, `mmrazor/structures/quantization/qconfig.py` lines 160-200, as `get_deploy_model`,
`mmrazor/models/algorithms/quantization/mm_architecture.py` lines 347-386, uses them. Numbers are exact rationals. -/

namespace Verif.Deploy
open Verif GptqQuantizer

/-- How weights are quantised: `w_qscheme` (qconfig.py lines 28-92) and the least scale of an observer. -/
structure Cfg where
  scheme : QParams.Scheme
  symmetric : Bool
  perChannel : Bool
  eps : ℚ
deriving DecidableEq

/-- `quant_min`. -/
def Cfg.lo (c : Cfg) : ℤ := c.scheme.range.1

/-- `quant_max`. -/
def Cfg.hi (c : Cfg) : ℤ := c.scheme.range.2

/-- The forward computation of a fake quantiser with fixed scale and zero point. -/
def fq (lo hi : ℤ) (q : ℚ × ℤ) (x : ℚ) : ℚ := ((min (max (rhe (x / q.1) + q.2) lo) hi - q.2 : ℤ) : ℚ) * q.1

/-- The scale and zero point of the (per-channel) min-max observer that `fixed_w_fakequant` (qconfig.py lines
196-200) puts in, after it has seen `ws`. torch computes with the smallest number or zero and with the largest
number or zero. -/
def Cfg.qparams (c : Cfg) (ws : List ℚ) : ℚ × ℤ :=
  let neg := ws.foldr min 0
  let pos := ws.foldr max 0
  if c.symmetric then
    (max (max (-neg) pos / (((c.hi - c.lo : ℤ) : ℚ) / 2)) c.eps, if c.scheme.signed then 0 else (c.lo + c.hi) / 2)
  else
    let s := max ((pos - neg) / ((c.hi - c.lo : ℤ) : ℚ)) c.eps
    (s, min (max (c.lo - rhe (neg / s)) c.lo) c.hi)

/-- One output channel of a convolution or linear layer with the batch normalisation behind it: the weights, the
bias, the affine parameters, the running mean and one over the root of the running variance. -/
structure Channel where
  w : List ℚ
  bias : ℚ
  gamma : ℚ
  beta : ℚ
  mean : ℚ
  rstd : ℚ
deriving DecidableEq

/-- A module of `SUPPORT_QAT_MODULES` (native_quantizer.py lines 47-55), when it has scales and zero points for its
weights, or the ordinary layer that it becomes. -/
structure Layer where
  bn : Bool
  relu : Bool
  channels : List Channel
  quant : Option (List (ℚ × ℤ))
deriving DecidableEq

/-- `to_float` (native_quantizer.py line 286): the batch normalisation is multiplied into the weights. -/
def toFloat (l : Layer) : Layer :=
  if l.bn then
    { l with
      bn := false, quant := none,
      channels := l.channels.map fun c => { c with
        w := c.w.map (· * (c.gamma * c.rstd)), bias := (c.bias - c.mean) * c.rstd * c.gamma + c.beta } }
  else { l with quant := none }

/-- Fake quantisation of all weights; a layer that is not quantised by channels has one scale. -/
def quantise (c : Cfg) (qs : List (ℚ × ℤ)) (cs : List Channel) : List Channel :=
  cs.zipIdx.map fun p => { p.1 with w := p.1.w.map (fq c.lo c.hi (qs.getD (if c.perChannel then p.2 else 0) (1, 0))) }

/-- What the new observers compute from the weights. -/
def observe (c : Cfg) (cs : List Channel) : List (ℚ × ℤ) :=
  if c.perChannel then cs.map fun ch => c.qparams ch.w else [c.qparams (cs.flatMap (·.w))]

/-- The body of the loop of `post_process_for_deploy`, native_quantizer.py lines 276-322. -/
def deployLayer (c : Cfg) (update keep : Bool) (l : Layer) : Layer := match l.quant with
  | none => l
  | some qs =>
    let f := toFloat l
    let f := if update then { f with channels := quantise c qs f.channels } else f
    if keep then { f with quant := some (observe c f.channels) } else f

/-- A tree of modules. -/
inductive Mod where
  | layer (l : Layer)
  | parent (kind : String) (children : List (String × Mod))

mutual
/-- `traverse` on one child, native_quantizer.py lines 273-324. -/
def visit (c : Cfg) (update keep : Bool) : Mod → Mod
  | .layer l => .layer (deployLayer c update keep l)
  | .parent k cs => .parent k (traverse c update keep cs)
/-- `traverse` on the children. -/
def traverse (c : Cfg) (update keep : Bool) : List (String × Mod) → List (String × Mod)
  | [] => []
  | (n, m) :: cs => (n, visit c update keep m) :: traverse c update keep cs
end

/-- `post_process_for_deploy`: the root itself is never exchanged. -/
def postProcess (c : Cfg) (update keep : Bool) : Mod → Mod
  | .layer l => .layer l
  | .parent k cs => .parent k (traverse c update keep cs)

/-- A fake quantiser of activations. -/
structure ActQuant where
  scale : ℚ
  zp : ℤ
  lo : ℤ
  hi : ℤ
deriving DecidableEq

/-- Its forward computation. -/
def ActQuant.run (a : ActQuant) (x : ℚ) : ℚ := fq a.lo a.hi (a.scale, a.zp) x

/-- `replace_fakequant` with `update_qparams` (qconfig.py lines 161-193): the parameters are copied, the range is
that of `a_qscheme`. -/
def replaceAct (s : QParams.Scheme) (a : ActQuant) : ActQuant := ⟨a.scale, a.zp, s.range.1, s.range.2⟩

end Verif.Deploy
