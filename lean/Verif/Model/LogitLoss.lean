import Verif.Py
import Mathlib.Analysis.SpecialFunctions.Log.Base
import Mathlib.Analysis.SpecialFunctions.Log.Deriv
import Mathlib.Analysis.SpecialFunctions.ExpDeriv

/-! Model of the distillation losses on class scores in `mmrazor/models/losses`:
`kl_divergence.py`, `cwd.py`, `decoupled_kd.py`, `kd_soft_ce_loss.py`,
`weighted_soft_label_distillation.py`, `cross_entropy_loss.py` and the first two losses of
`dafl_loss.py`.

Tensors hold exact reals. A tensor of shape (N, C, H, W) is a function of the sample, the channel
and the position, with one position for shape (N, C). Gradients are the partial derivatives. Not
modelled: floating-point rounding and overflow, mixed precision, the gathering of predictions over
processes, sample weights. -/

namespace Verif.LogitLoss
open Verif

/-- `F.softmax` along the class axis. -/
noncomputable def softmax {C : ℕ} (z : Fin C → ℝ) (i : Fin C) : ℝ := Real.exp (z i) / ∑ j, Real.exp (z j)

/-- `F.log_softmax` along the class axis. -/
noncomputable def logSoftmax {C : ℕ} (z : Fin C → ℝ) (i : Fin C) : ℝ := z i - Real.log (∑ j, Real.exp (z j))

/-- A tensor of N samples, C channels and P positions. -/
abbrev Tensor (N C P : ℕ) : Type := Fin N → Fin C → Fin P → ℝ

/-- The accepted `reduction` values of `KLDivergence` and `DKDLoss`. -/
inductive Reduction where
  | none | batchmean | sum | mean
  deriving DecidableEq

/-- The check of `reduction` in the constructors, kl_divergence.py lines 42-46,
decoupled_kd.py lines 43-47. -/
def parseReduction (s : String) : Except Err Reduction :=
  if s = "none" then .ok .none
  else if s = "batchmean" then .ok .batchmean
  else if s = "sum" then .ok .sum
  else if s = "mean" then .ok .mean
  else .error .assertion

/-- What a loss returns: a number or a tensor of the shape of the input. -/
inductive Out (N C P : ℕ) where
  | scalar (x : ℝ)
  | full (x : Tensor N C P)

/-- Multiplication of a result by a number. -/
def Out.scale {N C P : ℕ} (a : ℝ) : Out N C P → Out N C P
  | .scalar x => .scalar (a * x)
  | .full x => .full fun n c p => a * x n c p

/-- The sum of all elements of a tensor. -/
def total {N C P : ℕ} (x : Tensor N C P) : ℝ := ∑ n, ∑ c, ∑ p, x n c p

/-- `_Reduction.legacy_get_enum` of PyTorch: what the deprecated arguments `size_average` and
`reduce` mean. -/
def legacy (sizeAverage reduce : Option Bool) : Reduction :=
  if sizeAverage.getD true && reduce.getD true then .mean
  else if reduce.getD true then .sum
  else .none

/-- `F.kl_div(input, target, size_average, reduce, reduction)` of PyTorch: the deprecated arguments
win over `reduction`, except that `batchmean` still divides by the number of samples. -/
noncomputable def klDiv {N C P : ℕ} (sizeAverage reduce : Option Bool) (red : Reduction) (input target : Tensor N C P) : Out N C P :=
  let x : Tensor N C P := fun n c p => target n c p * Real.log (target n c p) - target n c p * input n c p
  let kind := if sizeAverage.isSome || reduce.isSome then legacy sizeAverage reduce
    else match red with
      | .batchmean => .sum
      | r => r
  let reduced : Out N C P := match kind with
    | .none => .full x
    | .mean => .scalar (total x / (N * C * P))
    | .sum => .scalar (total x)
    | .batchmean => .scalar (total x)
  match red with
  | .batchmean => reduced.scale (1 / N)
  | _ => reduced

/-- The constructor arguments of `KLDivergence`, kl_divergence.py lines 30-46. -/
structure Kl where
  tau : ℝ
  red : Reduction
  weight : ℝ

/-- `KLDivergence.forward`, kl_divergence.py lines 48-66. -/
noncomputable def klForward {N C P : ℕ} (k : Kl) (s t : Tensor N C P) : Out N C P :=
  let pT : Tensor N C P := fun n c p => softmax (fun j => t n j p / k.tau) c
  let lS : Tensor N C P := fun n c p => logSoftmax (fun j => s n j p / k.tau) c
  ((klDiv Option.none Option.none k.red lS pT).scale (k.tau ^ 2)).scale k.weight

/-- A tensor of shape (N, C, H, W) as stored: sample by sample, channel by channel. -/
structure Map where
  n : ℕ
  c : ℕ
  h : ℕ
  w : ℕ
  at' : ℕ → ℝ

/-- The rows of `x.view(-1, W * H)`: row `r` holds the map of one channel of one sample. -/
def Map.row (x : Map) (r : ℕ) (j : Fin (x.w * x.h)) : ℝ := x.at' (r * (x.w * x.h) + j)

/-- `ChannelWiseDivergence.forward`, cwd.py lines 25-51. Rows are combined as PyTorch does: equal
numbers of rows, or one row used for all; anything else is a `RuntimeError`. -/
noncomputable def cwdForward (tau weight : ℝ) (s t : Map) : Except Err ℝ :=
  if h : s.h = t.h ∧ s.w = t.w then
    let rs := s.n * s.c
    let rt := t.n * t.c
    let term (r r' : ℕ) : ℝ :=
      let zt : Fin (s.w * s.h) → ℝ := fun j => t.row r' (j.cast (by rw [h.1, h.2])) / tau
      let zs : Fin (s.w * s.h) → ℝ := fun j => s.row r j / tau
      ∑ j, (softmax zt j * logSoftmax zt j - softmax zt j * logSoftmax zs j)
    let sum : Except Err ℝ :=
      if rs = rt then .ok (∑ r ∈ Finset.range rs, term r r)
      else if rt = 1 then .ok (∑ r ∈ Finset.range rs, term r 0)
      else if rs = 1 then .ok (∑ r ∈ Finset.range rt, term 0 r)
      else .error .runtime
    sum.map fun x => weight * (x * tau ^ 2) / (s.c * s.n)
  else .error .assertion

/-- The constructor arguments of `DKDLoss`, decoupled_kd.py lines 33-50. -/
structure Dkd where
  tau : ℝ
  alpha : ℝ
  beta : ℝ
  red : Reduction
  weight : ℝ

/-- `_get_gt_mask` and, negated, `_get_non_gt_mask`, decoupled_kd.py lines 123-157: whether class
`c` is the label of sample `n`. -/
def gtMask (labels : List ℤ) (n c : ℕ) : Bool := labels[n]? == some (c : ℤ)

/-- Whether `scatter_(1, target.unsqueeze(1), 1)` accepts the labels: not more of them than samples,
each a class. -/
def scatterOk (N C : ℕ) (labels : List ℤ) : Bool :=
  labels.length ≤ N && labels.all fun l => 0 ≤ l && l < C

/-- `_kl_loss`, decoupled_kd.py lines 101-110. -/
noncomputable def dkdKl {N C : ℕ} (d : Dkd) (input target : Tensor N C 1) : Out N C 1 :=
  (klDiv (some false) Option.none d.red input target).scale (d.tau ^ 2)

/-- `_cat_mask`, decoupled_kd.py lines 112-121: the probability of the label and that of the other
classes. -/
def catMask {N C : ℕ} (x : Tensor N C 1) (labels : List ℤ) : Tensor N 2 1 := fun n k _ =>
  if k = 0 then ∑ c, x n c 0 * (if gtMask labels n c then 1 else 0)
  else ∑ c, x n c 0 * (if gtMask labels n c then 0 else 1)

/-- `_get_tckd_loss`, decoupled_kd.py lines 86-99. -/
noncomputable def tckd {N C : ℕ} (d : Dkd) (s t : Tensor N C 1) (labels : List ℤ) : Out N 2 1 :=
  let ps : Tensor N C 1 := fun n c p => softmax (fun j => s n j p / d.tau) c
  let pt : Tensor N C 1 := fun n c p => softmax (fun j => t n j p / d.tau) c
  dkdKl d (fun n c p => Real.log (catMask ps labels n c p)) (catMask pt labels)

/-- `_get_nckd_loss`, decoupled_kd.py lines 74-84. -/
noncomputable def nckd {N C : ℕ} (d : Dkd) (s t : Tensor N C 1) (labels : List ℤ) : Out N C 1 :=
  let shift (x : Tensor N C 1) (n : Fin N) (p : Fin 1) : Fin C → ℝ :=
    fun j => x n j p / d.tau - 1000 * (if gtMask labels n j then 1 else 0)
  dkdKl d (fun n c p => logSoftmax (shift s n p) c) (fun n c p => softmax (shift t n p) c)

/-- `DKDLoss.forward`, decoupled_kd.py lines 52-72. Tensors of different shapes cannot be added. -/
noncomputable def dkdForward {N C : ℕ} (d : Dkd) (s t : Tensor N C 1) (labels : List ℤ) : Except Err ℝ :=
  if scatterOk N C labels then
    match tckd d s t labels, nckd d s t labels with
    | .scalar a, .scalar b => .ok (d.weight * (d.alpha * a + d.beta * b))
    | _, _ => .error .runtime
  else .error .runtime

/-- The `reduction` values of `KDSoftCELoss`; Python's `None` is one of them. -/
inductive CeReduction where
  | pyNone | none | mean | sum
  deriving DecidableEq

/-- The check of `reduction`, kd_soft_ce_loss.py lines 50-54; `none` is Python's `None`. -/
def parseCeReduction : Option String → Except Err CeReduction
  | Option.none => .ok .pyNone
  | some s =>
    if s = "none" then .ok .none
    else if s = "mean" then .ok .mean
    else if s = "sum" then .ok .sum
    else .error .assertion

/-- The constructor arguments of `KDSoftCELoss`, kd_soft_ce_loss.py lines 37-54. -/
structure SoftCe where
  tau : ℝ
  red : CeReduction
  multSquare : Bool
  weight : ℝ

/-- What `KDSoftCELoss` returns: a number or one number per sample. -/
inductive CeOut (N : ℕ) where
  | scalar (x : ℝ)
  | each (x : Fin N → ℝ)

/-- Multiplication of a result by a number. -/
def CeOut.scale {N : ℕ} (a : ℝ) : CeOut N → CeOut N
  | .scalar x => .scalar (a * x)
  | .each x => .each fun n => a * x n

/-- `weight_reduce_loss` of MMClassification without weights: `avg_factor` goes with `mean` and is
ignored with `none`. -/
noncomputable def reduceCe {N : ℕ} (red : CeReduction) (avg : Option ℝ) (x : Fin N → ℝ) : Except Err (CeOut N) :=
  match avg, red with
  | Option.none, .none => .ok (.each x)
  | Option.none, .mean => .ok (.scalar ((∑ n, x n) / N))
  | Option.none, .sum => .ok (.scalar (∑ n, x n))
  | some a, .mean => .ok (.scalar ((∑ n, x n) / a))
  | some _, .none => .ok (.each x)
  | _, _ => .error .value

/-- `KDSoftCELoss.forward`, kd_soft_ce_loss.py lines 56-94, without sample weights. -/
noncomputable def softCeForward {N C : ℕ} (k : SoftCe) (s t : Fin N → Fin C → ℝ) (avg : Option ℝ := Option.none)
    (override : Option CeReduction := Option.none) : Except Err (CeOut N) :=
  let red := match override with
    | some .pyNone => k.red
    | some r => r
    | Option.none => k.red
  let x : Fin N → ℝ := fun n => ∑ c, -softmax (fun j => t n j / k.tau) c * logSoftmax (fun j => s n j / k.tau) c
  (reduceCe red avg x).map fun o =>
    let o := o.scale k.weight
    if k.multSquare then o.scale (k.tau ^ 2) else o

/-- `F.one_hot(gt_labels, num_classes)`. -/
def oneHot (K : ℕ) (label : ℕ) (j : ℕ) : ℝ := if j = label ∧ j < K then 1 else 0

/-- `focal_weight`, weighted_soft_label_distillation.py lines 49-52. -/
noncomputable def focal (ceS ceT : ℝ) : ℝ := 1 - Real.exp (-(max (ceS / (ceT + 1 / 10 ^ 7)) 0))

/-- `WSLD.forward`, weighted_soft_label_distillation.py lines 30-59. A label outside the configured
`num_classes` or a number of classes that differs from `num_classes` is a `RuntimeError`; sizes of
one, which PyTorch repeats, are excluded by `1 < C` and `1 < K` in the theorems. -/
noncomputable def wsldForward {N C : ℕ} (tau weight : ℝ) (K : ℕ) (s t : Fin N → Fin C → ℝ) (labels : Fin N → ℕ) : Except Err ℝ :=
  if (∀ n, labels n < K) ∧ K = C then
    let ce (n : Fin N) : ℝ := -∑ c, softmax (fun j => t n j / tau) c * logSoftmax (fun j => s n j / tau) c
    let hard (z : Fin N → Fin C → ℝ) (n : Fin N) : ℝ := -∑ c : Fin C, oneHot K (labels n) c * logSoftmax (z n) c
    .ok (weight * (tau ^ 2 * ((∑ n, focal (hard s n) (hard t n) * ce n) / N)))
  else .error .runtime

/-- `F.cross_entropy(z, label)` with class labels, averaged over the samples. -/
noncomputable def crossEntropy {N C : ℕ} (z : Fin N → Fin C → ℝ) (label : Fin N → Fin C) : ℝ :=
  (∑ n, -logSoftmax (z n) (label n)) / N

/-- `CrossEntropyLoss.forward`, cross_entropy_loss.py lines 20-23; `best` stands for
`argmax(dim=1)`, which may return any maximiser. -/
noncomputable def ceForward {N C : ℕ} (weight : ℝ) (best : (Fin C → ℝ) → Fin C) (s t : Fin N → Fin C → ℝ) : ℝ :=
  crossEntropy s (fun n => best (t n)) * weight

/-- `OnehotLikeLoss`, dafl_loss.py lines 24-30 and 49-56. -/
noncomputable def onehotForward {N C : ℕ} (weight : ℝ) (best : (Fin C → ℝ) → Fin C) (t : Fin N → Fin C → ℝ) : ℝ :=
  weight * crossEntropy t (fun n => best (t n))

/-- `InformationEntropyLoss` in one process, dafl_loss.py lines 24-30 and 73-84. -/
noncomputable def entropyForward {N C : ℕ} (weight : ℝ) (t : Fin N → Fin C → ℝ) : ℝ :=
  let prob (c : Fin C) : ℝ := (∑ n, softmax (t n) c) / N
  weight * ∑ c, prob c * Real.logb 10 (prob c)

end Verif.LogitLoss
