import Verif.Model.LogitLoss
import Mathlib.Analysis.SpecialFunctions.Pow.Real

/-! Model of connectors (`mmrazor/models/architectures/connectors`: `fbkd_connector.py`,
`mgd_connector.py`, `crd_connector.py`, `byot_connector.py`), of the neck
`squeezemean_with_dropout.py` and of the generators (`mmrazor/models/architectures/generators`).

Tensors hold exact reals. Feature maps whose values do not matter are square and described by
channels and side length. -/

namespace Verif.Connect
open Verif

/-! ### `FBKDStudentConnector`, `FBKDTeacherConnector` -/

/-- The spatial mask of a map with `C` channels and `H * W` positions, fbkd_connector.py lines
160-168 and 271-279. -/
noncomputable def spatialMask {C H W : ℕ} (x : Fin C → Fin (H * W) → ℝ) (T : ℝ) :
    Fin (H * W) → ℝ :=
  fun p => LogitLoss.softmax (fun q => (∑ c, |x c q|) / C / T) p * W * H

/-- The channel mask, lines 170-178 and 281-289. -/
noncomputable def channelMask {C P : ℕ} (inChannels : ℕ) (x : Fin C → Fin P → ℝ) (T : ℝ) :
    Fin C → ℝ :=
  fun c => LogitLoss.softmax (fun d => (∑ p, |x d p|) / P / T) c * inChannels

/-! ### `MGDConnector` -/

/-- The mask at a place with random number `u`, mgd_connector.py lines 65-67. -/
noncomputable def mgdMask (lam u : ℝ) : ℝ := if u > 1 - lam then 0 else 1

/-- The masked features, lines 57-69: one random number per position, or per channel. -/
noncomputable def mgdMasked {C P : ℕ} (lam : ℝ) (onChannel : Bool) (uPos : Fin P → ℝ)
    (uCh : Fin C → ℝ) (x : Fin C → Fin P → ℝ) : Fin C → Fin P → ℝ :=
  fun c p => x c p * mgdMask lam (if onChannel = true then uCh c else uPos p)

/-! ### `CRDConnector` -/

/-- `Normalize(2).forward` for one sample, crd_connector.py lines 44-47; `none` stands for
not-a-number. -/
noncomputable def normalize {C : ℕ} (x : Fin C → ℝ) : Option (Fin C → ℝ) :=
  let norm := Real.rpow (∑ c, x c ^ 2) (1 / 2)
  if norm = 0 then none else some (fun c => x c / norm)

/-! ### `BYOTConnector` -/

/-- The arguments. -/
structure Byot where
  inC : ℕ
  outC : ℕ
  classes : ℕ
  expansion : ℕ := 4
  pool : ℕ := 4
  k : ℕ := 3
  stride : ℕ := 1
  deriving DecidableEq

/-- `log(out_channel / in_channel, 2)` if it is an integer, byot_connector.py lines 52-53. The
logarithm is taken as exact. -/
def logRatio (inC outC : ℕ) : Option ℤ :=
  match (List.range (outC + 1)).find? (fun k => decide (outC = inC * 2 ^ k)) with
  | some k => some k
  | none =>
    match (List.range (inC + 1)).find? (fun k => decide (inC = outC * 2 ^ k)) with
    | some k => some (-k)
    | none => none

/-- Channels and side length. -/
abbrev Shape := ℕ × ℕ

/-- A `DartsSepConv` (darts_series.py lines 79-126), with its input and output channels. -/
abbrev Sep := ℕ × ℕ

/-- The loop of lines 58-65. -/
def sepChain (expansion : ℕ) : ℕ → ℕ → List Sep
  | 0, _ => []
  | n + 1, c => (c * expansion, c * 2 * expansion) :: sepChain expansion n (c * 2)

/-- `BYOTConnector.__init__`, lines 32-68: the layers of `scala` before the pooling. -/
def byotBuild (b : Byot) : Except Err (List Sep) :=
  if ¬ (b.k = 3 ∨ b.k = 5) ∨ ¬ (b.stride = 1 ∨ b.stride = 2) then .error .assertion
  else if b.inC = 0 then .error .zeroDivision
  else if b.outC = 0 then .error .value
  else
    match logRatio b.inC b.outC with
    | none => .error .assertion
    | some n => .ok (sepChain b.expansion n.toNat b.inC)

/-- The shape a `DartsSepConv` returns: the first convolution has the stride, both are padded by
half of the kernel. -/
def sepShape (k stride : ℕ) (s : Sep) (x : Shape) : Except Err Shape :=
  if x.1 ≠ s.1 ∨ x.2 + 2 * (k / 2) < k then .error .runtime
  else .ok (s.2, (x.2 + 2 * (k / 2) - k) / stride + 1)

/-- A sequence of them. -/
def sepSeq (k stride : ℕ) : List Sep → Shape → Except Err Shape
  | [], x => .ok x
  | s :: l, x =>
    match sepShape k stride s x with
    | .error e => .error e
    | .ok y => sepSeq k stride l y

/-- `feat * feature` with broadcasting of side length one; the channels agree. -/
def mulShape (x y : Shape) : Except Err Shape :=
  if x = y then .ok x
  else if x.1 = y.1 ∧ x.2 = 1 then .ok y
  else if x.1 = y.1 ∧ y.2 = 1 then .ok x
  else .error .runtime

/-- `nn.AvgPool2d(pool)`. -/
def poolShape (pool : ℕ) (x : Shape) : Except Err Shape :=
  if pool = 0 ∨ x.2 < pool then .error .runtime else .ok (x.1, x.2 / pool)

/-- `nn.Linear` on the flattened map: the sizes of both results. -/
def fcShape (b : Byot) (x : Shape) : Except Err (ℕ × ℕ) :=
  if x.1 * (x.2 * x.2) = b.outC * b.expansion then .ok (x.1 * (x.2 * x.2), b.classes)
  else .error .runtime

/-- `BYOTConnector.forward_train`, lines 70-82. -/
def byotForward (b : Byot) (scala : List Sep) (x : Shape) : Except Err (ℕ × ℕ) :=
  match sepShape b.k b.stride (b.inC * b.expansion, b.inC * b.expansion) x with
  | .error e => .error e
  | .ok a =>
    match mulShape (a.1, a.2 * 2) x with
    | .error e => .error e
    | .ok f =>
      match sepSeq b.k b.stride scala f with
      | .error e => .error e
      | .ok g =>
        match poolShape b.pool g with
        | .error e => .error e
        | .ok h => fcShape b h

/-! ### `SqueezeMeanPoolingWithDropout` -/

/-- `x.mean(i, keepdim=True)` and `torch.squeeze(x, -1)` of the last axis of length `d`. The
values of one sample and channel are a function of the indices of the further axes. -/
noncomputable def meanLast (d : ℕ) (x : List ℕ → ℝ) : List ℕ → ℝ :=
  fun idx => ((List.range d).map (fun j => x (idx ++ [j]))).sum / d

/-- `dimension_reduction`, squeezemean_with_dropout.py lines 27-33, for one sample and channel;
the sizes of the further axes from the last to the first. -/
noncomputable def reduceAxes : List ℕ → (List ℕ → ℝ) → (List ℕ → ℝ)
  | [], x => x
  | d :: ds, x => reduceAxes ds (meanLast d x)

/-- The input of the neck. -/
inductive NeckIn (T : Type) where
  | tuple (l : List T)
  | tensor (x : T)
  | other

/-- What the neck returns. -/
inductive NeckOut (T : Type) where
  | tuple (l : List T)
  | tensor (x : T)

/-- `forward`, lines 35-57: `red` reduces a map, `drop` is `F.dropout` with a rate. In line 57
`outs` is only bound when dropout is applied. -/
noncomputable def neckForward {T : Type} (red : T → T) (drop : ℝ → T → T) (ratio : Option ℝ)
    (training : Bool) : NeckIn T → Except Err (NeckOut T)
  | .tuple l =>
    let outs := l.map red
    if 0 < ratio.getD 0 ∧ training = true then .ok (.tuple (outs.map (drop (ratio.getD 0))))
    else .ok (.tuple outs)
  | .tensor x =>
    if 0 < ratio.getD 0 ∧ training = true then .ok (.tensor (drop (ratio.getD 0) (red x)))
    else .error .name
  | .other => .error .type

/-! ### Generators -/

/-- The latent data passed to a generator. -/
inductive Latent where
  | none
  | tensor (shape : List ℕ)
  | other
  deriving DecidableEq

/-- `BaseGenerator.process_latent`, base_generator.py lines 31-59: the shape of the data. -/
def processLatent (latentDim : ℕ) (batch : ℤ) : Latent → Except Err (List ℕ)
  | .tensor shape =>
    match shape[1]? with
    | Option.none => .error .index
    | some d =>
      if d ≠ latentDim then .error .assertion
      else if shape.length = 2 then .ok shape
      else .error .value
  | .none => if 0 < batch then .ok [batch.toNat, latentDim] else .error .assertion
  | .other => .error .name

/-- `DAFLGenerator` (dafl_generator.py lines 40-86) and `ZSKTGenerator` (zskt_generator.py lines
54-91): the shape of the images; convolutions keep the size, an empty map cannot be upsampled. -/
def generate (imgSize latentDim scale : ℕ) (batch : ℤ) (data : Latent) : Except Err (List ℕ) :=
  if scale = 0 then .error .zeroDivision
  else
    let init := imgSize / scale ^ 2
    match processLatent latentDim batch data with
    | .error e => .error e
    | .ok s =>
      if init = 0 then .error .runtime
      else .ok [s.headD 0, 3, init * scale * scale, init * scale * scale]

end Verif.Connect
