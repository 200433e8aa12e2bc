import Verif.Py
import Mathlib.Analysis.Real.Sqrt

/-! Model of the distillation losses on features in `mmrazor/models/losses`: `l1_loss.py`,
`l2_loss.py`, `at_loss.py`, `factor_transfer_loss.py`, `ab_loss.py`, `ofd_loss.py`, `mgd_loss.py`,
`ActivationLoss` of `dafl_loss.py` and `fbkd_loss.py`.

Tensors hold exact reals; a feature of shape (N, ...) is a function of the sample and the position in
its flattened rest. `none` stands for a loss that is not a number. Student and teacher features have
equal shapes unless said otherwise: repeating sizes of one is not modelled. -/

namespace Verif.FeatureLoss
open Verif

/-- A feature of N samples with D values each. -/
abbrev Feat (N D : ℕ) : Type := Fin N → Fin D → ℝ

/-- The accepted `reduction` values of `L1Loss`, l1_loss.py line 50. -/
inductive Reduction where
  | none | batchmean | sum | mean
  deriving DecidableEq

/-- The check of `reduction`, l1_loss.py lines 50-54. -/
def parseReduction (s : String) : Except Err Reduction :=
  if s = "none" then .ok .none
  else if s = "batchmean" then .ok .batchmean
  else if s = "sum" then .ok .sum
  else if s = "mean" then .ok .mean
  else .error .assertion

/-- The constructor arguments of `L1Loss`, l1_loss.py lines 38-54. -/
structure L1 where
  weight : ℝ
  sizeAverage : Option Bool
  reduce : Option Bool
  red : Reduction

/-- What `L1Loss` returns: a number or a tensor. -/
inductive Out (N D : ℕ) where
  | scalar (x : ℝ)
  | full (x : Feat N D)

/-- `L1Loss.forward`, l1_loss.py lines 56-71, with `F.l1_loss` of PyTorch: given deprecated arguments
win over `reduction`, and `batchmean` is not one of its reductions. -/
noncomputable def l1Forward {N D : ℕ} (k : L1) (s t : Feat N D) : Except Err (Out N D) :=
  let red : Reduction :=
    if k.sizeAverage.isSome || k.reduce.isSome then
      if k.sizeAverage.getD true && k.reduce.getD true then .mean
      else if k.reduce.getD true then .sum
      else .none
    else k.red
  match red with
  | .none => .ok (.full fun n d => k.weight * |s n d - t n d|)
  | .mean => .ok (.scalar (k.weight * ((∑ n, ∑ d, |s n d - t n d|) / (N * D))))
  | .sum => .ok (.scalar (k.weight * ∑ n, ∑ d, |s n d - t n d|))
  | .batchmean => .error .value

/-- The Euclidean norm of a row. -/
noncomputable def norm {D : ℕ} (x : Fin D → ℝ) : ℝ := Real.sqrt (∑ d, x d ^ 2)

/-- The constructor arguments of `L2Loss`, l2_loss.py lines 22-35. -/
structure L2 where
  weight : ℝ
  normalize : Bool
  mult : ℝ
  divElement : Bool
  dist : Bool

open Classical in
/-- `normalize_feature`, l2_loss.py lines 67-75: dividing a zero row by its norm gives numbers that
are none. -/
noncomputable def normalizeFeature {N D : ℕ} (mult : ℝ) (x : Feat N D) : Option (Feat N D) :=
  if ∃ n, norm (x n) = 0 then none else some fun n d => x n d / norm (x n) * mult

open Classical in
/-- `L2Loss.forward`, l2_loss.py lines 37-65. -/
noncomputable def l2Forward {N D : ℕ} (k : L2) (s t : Feat N D) : Option ℝ :=
  let both : Option (Feat N D × Feat N D) :=
    if k.normalize then
      match normalizeFeature k.mult s, normalizeFeature k.mult t with
      | some s, some t => some (s, t)
      | _, _ => none
    else some (s, t)
  both.map fun (s, t) =>
    let loss := ∑ n, ∑ d, (s n d - t n d) ^ 2
    let loss := if k.dist then Real.sqrt loss
      else if k.divElement then loss / (N * D)
      else loss / N
    k.weight * loss

/-- `F.normalize(x)` of PyTorch: every row is divided by its norm, but at least by `1e-12`. -/
noncomputable def unit {D : ℕ} (x : Fin D → ℝ) (d : Fin D) : ℝ := x d / max (norm x) (1 / 10 ^ 12)

/-- `ATLoss.calc_attention_matrix`, at_loss.py lines 35-41: for C channels and P positions. -/
noncomputable def attention {N C P : ℕ} (x : Fin N → Fin C → Fin P → ℝ) : Feat N P := fun n =>
  unit fun p => (∑ c, x n c p ^ 2) / C

/-- `ATLoss.forward`, at_loss.py lines 28-33; student and teacher may differ in channels. -/
noncomputable def atForward {N C C' P : ℕ} (weight : ℝ) (s : Fin N → Fin C → Fin P → ℝ) (t : Fin N → Fin C' → Fin P → ℝ) : ℝ :=
  weight * ((∑ n, ∑ p, (attention s n p - attention t n p) ^ 2) / (N * P))

/-- `FTLoss`, factor_transfer_loss.py lines 23-38. -/
noncomputable def ftForward {N D : ℕ} (weight : ℝ) (s t : Feat N D) : ℝ :=
  weight * ((∑ n, ∑ d, |unit (s n) d - unit (t n) d|) / (N * D))

open Classical in
/-- `criterion_alternative_l2`, ab_loss.py lines 47-66, one value. -/
noncomputable def alternative (m s t : ℝ) : ℝ :=
  |(s + m) ^ 2 * (if s > -m ∧ t ≤ 0 then 1 else 0) + (s - m) ^ 2 * (if s ≤ m ∧ t > 0 then 1 else 0)|

/-- `ABLoss.forward`, ab_loss.py lines 31-45. -/
noncomputable def abForward {N D : ℕ} (weight margin : ℝ) (s t : Feat N D) : ℝ :=
  weight * ((∑ n, ∑ d, alternative margin (s n d) (t n d)) / N / 1000 * 3)

open Classical in
/-- `OFDLoss`, ofd_loss.py lines 28-56. -/
noncomputable def ofdForward {N D : ℕ} (weight mul : ℝ) (s t : Feat N D) : ℝ :=
  weight * ((∑ n, ∑ d, (s n d - t n d) ^ 2 * (if s n d > t n d ∨ t n d > 0 then 1 else 0)) / N / mul)

/-- `MGDLoss.forward`, mgd_loss.py lines 24-54. -/
noncomputable def mgdForward {N D : ℕ} (alpha : ℝ) (s t : Feat N D) : ℝ := (∑ n, ∑ d, (s n d - t n d) ^ 2) / N * alpha

/-- The `norm_type` of `ActivationLoss`. -/
inductive NormType where
  | norm | abs
  deriving DecidableEq

/-- The check of `norm_type`, dafl_loss.py lines 100-102. -/
def parseNorm (s : String) : Except Err NormType :=
  if s = "norm" then .ok .norm else if s = "abs" then .ok .abs else .error .assertion

/-- `ActivationLoss.forward`, dafl_loss.py lines 104-124. -/
noncomputable def activationForward {N D : ℕ} (weight : ℝ) (k : NormType) (x : Feat N D) : ℝ :=
  weight * match k with
    | .norm => -Real.sqrt (∑ n, ∑ d, x n d ^ 2)
    | .abs => -((∑ n, ∑ d, |x n d|) / (N * D))

/-- The weights of `FBKDLoss`, fbkd_loss.py lines 59-72. -/
structure Fbkd where
  mask : ℝ
  channel : ℝ
  spatial : ℝ
  nonlocal : ℝ
  weight : ℝ

/-- What a connector hands over: masks, pooled features, relations and the feature itself. -/
structure FbkdIn (N C P Q R : ℕ) where
  spatialMask : Feat N P
  channelMask : Feat N C
  channelPool : Feat N C
  spatialPool : Feat N Q
  relation : Feat N R
  feat : Fin N → Fin C → Fin P → ℝ

/-- `torch.dist`. -/
noncomputable def dist {N D : ℕ} (a b : Feat N D) : ℝ := Real.sqrt (∑ n, ∑ d, (a n d - b n d) ^ 2)

/-- `FBKDLoss.forward` with `mask_l2_loss`, fbkd_loss.py lines 10-35 and 74-120: the pooled channels of the
teacher are computed here, and no channel mask is passed on. -/
noncomputable def fbkdForward {N C P Q R : ℕ} (k : Fbkd) (s t : FbkdIn N C P Q R) : ℝ :=
  let mask (n : Fin N) (p : Fin P) : ℝ := (t.spatialMask n p + s.spatialMask n p) / 2
  k.weight * (Real.sqrt (∑ n, ∑ c, ∑ p, (t.feat n c p - s.feat n c p) ^ 2 * mask n p) * k.mask +
    dist (fun n c => (∑ p, t.feat n c p) / P) s.channelPool * k.channel +
    dist t.spatialPool s.spatialPool * k.spatial +
    dist t.relation s.relation * k.nonlocal)

end Verif.FeatureLoss
