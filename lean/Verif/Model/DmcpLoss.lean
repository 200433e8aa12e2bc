import Mathlib.Analysis.SpecialFunctions.Log.Basic
import Mathlib.Data.EReal.Basic
import Verif.Py

/-!
Model of the FLOPs loss of DMCP,
`/repo/mmrazor/models/algorithms/pruning/dmcp.py` 246-284.

The numbers are exact reals with the infinities; `none` is a NaN.
-/
namespace Verif.DmcpLoss

/-- `torch.log`: NaN on negative numbers, minus infinity at zero. -/
noncomputable def tlog (x : ℝ) : Option EReal :=
  if x < 0 then none else if x = 0 then some ⊥ else some (Real.log x : EReal)

/-- `flops_error`, dmcp.py 260: the target is in MFLOPs. -/
noncomputable def flopsError (target expected : ℝ) : ℝ := expected - target * 1000000

/-- The `log_l1` branch, dmcp.py 266-280. -/
noncomputable def logL1 (target expected : ℝ) : Option EReal :=
  let err := flopsError target expected
  let ratio : ℝ := if |err| > 200 then 1 / 10 else 1
  let lower := target * (95 / 100)
  if expected < lower then tlog (ratio * |err|)
  else if lower ≤ expected ∧ expected < target then some 0
  else tlog (ratio * |expected - lower|)

/-- `-torch.log(1 / (flops_error + 1e-5))`, dmcp.py 264-265. -/
noncomputable def invertedLogL1 (target expected : ℝ) : Option EReal :=
  let d := flopsError target expected + 1 / 100000
  if d = 0 then some ⊥ else (tlog (1 / d)).map (- ·)

/-- `flops_loss_type`. -/
inductive Kind where
  | l2
  | invertedLogL1
  | logL1
  | l1
  | unknown
deriving DecidableEq

/-- `_compute_flops_loss` before the weight is multiplied in. -/
noncomputable def flopsLoss (kind : Kind) (target expected : ℝ) : Except Err (Option EReal) :=
  match kind with
  | .l2 => .ok (some ((flopsError target expected ^ 2 : ℝ) : EReal))
  | .invertedLogL1 => .ok (invertedLogL1 target expected)
  | .logL1 => .ok (logL1 target expected)
  | .l1 => .ok (some ((|flopsError target expected| : ℝ) : EReal))
  | .unknown => .error .notImplemented

end Verif.DmcpLoss
