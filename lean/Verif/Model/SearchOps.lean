/-
Model of the candidate operations of searchable networks, as maps on the shapes
of feature maps (/repo/mmrazor/models/architectures/ops/*.py).

Values of the feature maps are not modelled, only channels, height and width
(the batch dimension is left out).  Normalisation layers only check the number
of channels; activations, dropout of paths and checkpointing keep shapes and
are left out.
-/
import Verif.Py

namespace Verif.SearchOps
open Verif

/-- Channels, height and width of a feature map. -/
structure Shape where
  c : ℕ
  h : ℕ
  w : ℕ
  deriving DecidableEq, Repr

/-- Size after a sliding window of size `k`, stride `s`, padding `p` and
dilation `d` (PyTorch's Conv2d and pooling layers, floor mode); a window larger
than the padded input is an error. -/
def win (k s p d n : ℕ) : Except Err ℕ :=
  if n + 2 * p < d * (k - 1) + 1 then .error .runtime
  else .ok ((n + 2 * p - (d * (k - 1) + 1)) / s + 1)

/-- A convolution from `cin` to `cout` channels (PyTorch's Conv2d). -/
def conv (cin cout k s p d : ℕ) (x : Shape) : Except Err Shape :=
  if x.c = cin then do
    let h ← win k s p d x.h
    let w ← win k s p d x.w
    .ok ⟨cout, h, w⟩
  else .error .runtime

/-- A pooling layer (PyTorch's MaxPool2d, AvgPool2d). -/
def pool (k s p : ℕ) (x : Shape) : Except Err Shape := do
  let h ← win k s p 1 x.h
  let w ← win k s p 1 x.w
  .ok ⟨x.c, h, w⟩

/-- A layer that works on `c` channels and keeps the shape: batch norm, or the
squeeze-and-excitation layer of mmcls. -/
def keep (c : ℕ) (x : Shape) : Except Err Shape :=
  if x.c = c then .ok x else .error .runtime

/-- One dimension of PyTorch's broadcasting. -/
def bdim (a b : ℕ) : Except Err ℕ :=
  if a = b then .ok a else if a = 1 then .ok b else if b = 1 then .ok a
  else .error .runtime

/-- Sum of two feature maps, with broadcasting. -/
def add (x y : Shape) : Except Err Shape := do
  let c ← bdim x.c y.c
  let h ← bdim x.h y.h
  let w ← bdim x.w y.w
  .ok ⟨c, h, w⟩

/-- `x += y`: the sum must have the shape of `x`. -/
def addTo (x y : Shape) : Except Err Shape := do
  let z ← add x y
  if z = x then .ok z else .error .runtime

/-- Concatenation along the channels. -/
def cat (x y : Shape) : Except Err Shape :=
  if x.h = y.h ∧ x.w = y.w then .ok ⟨x.c + y.c, x.h, x.w⟩ else .error .runtime

/-- A layer that is applied if `b`. -/
def opt (b : Bool) (f : Shape → Except Err Shape) (x : Shape) : Except Err Shape :=
  if b then f x else .ok x

/-- ShortcutLayer.forward (mobilenet_series.py 44-65): `cin` and `cout` are the
numbers of active channels. -/
def shortcut (cin cout red : ℕ) (x : Shape) : Except Err Shape := do
  let x ← opt (1 < red) (pool red red (x.w % 2)) x
  opt (cin ≠ cout) (conv cin cout 1 1 0 1) x

/-- The registered operations: MBBlock (kernel, expand ratio, whether with
squeeze-and-excitation, whether with the shortcut of AttentiveNAS), Identity,
ShuffleBlock, ShuffleXception, ConvBnAct (kernel, padding, skip),
DepthwiseSeparableConv (kernel, whether with squeeze-and-excitation, noskip;
pointwise kernel 1), and those of DARTS: DartsPoolBN, DartsDilConv,
DartsSepConv, DartsSkipConnect, DartsZero.  Dilation of the efficientnet
operations is left at 1. -/
inductive Op where
  | mb (k e : ℕ) (se att : Bool)
  | identity
  | shuffle (k : ℕ)
  | xception
  | convBnAct (k p : ℕ) (skip : Bool)
  | dsConv (k : ℕ) (se noskip : Bool)
  | poolBN (k : ℕ)
  | dilConv (k : ℕ)
  | sepConv (k : ℕ)
  | skip
  | zero
  deriving DecidableEq, Repr

/-- The checks of the constructors: MBBlock (mobilenet_series.py 121-123),
ShuffleBlock (shufflenet_series.py 47-67), ShuffleXception (170-180),
DartsDilConv and DartsSepConv (darts_series.py 54-55, 88-89; the second
convolution has `groups=in_channels`, 107-114, which PyTorch requires to divide
the output channels). -/
def Op.make (cin cout s : ℕ) : Op → Except Err Unit
  | .mb _ _ _ _ => if s = 1 ∨ s = 2 then .ok () else .error .assertion
  | .shuffle k =>
    if k = 3 ∨ k = 5 ∨ k = 7 then
      if s = 1 ∧ cin ≠ cout / 2 * 2 then .error .assertion else .ok ()
    else .error .assertion
  | .xception => if s = 1 ∧ cin ≠ cout / 2 * 2 then .error .assertion else .ok ()
  | .dilConv k =>
    if (k = 3 ∨ k = 5) ∧ (s = 1 ∨ s = 2) then .ok () else .error .assertion
  | .sepConv k =>
    if (k = 3 ∨ k = 5) ∧ (s = 1 ∨ s = 2) then
      if cout % cin = 0 then .ok () else .error .value
    else .error .assertion
  | _ => .ok ()

/-- MBBlock.forward (mobilenet_series.py 177-223).  `cin`, `cout` and `e` are the
active channels and ratio; `res` and `ex` are decided by the constructor. -/
def mbRun (ex res se att : Bool) (cin cout s k e : ℕ) (x : Shape) : Except Err Shape := do
  let mid := cin * e
  let o ← opt ex (conv cin mid 1 1 0 1) x
  let o ← conv mid mid k s (k / 2) 1 o
  let o ← opt se (keep mid) o
  let o ← conv mid cout 1 1 0 1 o
  if res then add x o
  else if att then do
    let sx ← shortcut cin cout s x
    add sx o
  else .ok o

/-- The two branches of a ShuffleNet unit (shufflenet_series.py 110-128,
243-262): each is a list of convolutions given by output channels, kernel and
stride. -/
def convs (cin : ℕ) : List (ℕ × ℕ × ℕ) → Shape → Except Err Shape
  | [], x => .ok x
  | (cout, k, s) :: l, x => do
    let y ← conv cin cout k s (k / 2) 1 x
    convs cout l y

/-- The two ways of a ShuffleNet unit: with stride 1 the channels are chunked, the
second half goes through branch 2 and is concatenated to the first one
(`torch.chunk` gives the larger half first). -/
def branches (s : ℕ) (b1 b2 : Shape → Except Err Shape) (x : Shape) : Except Err Shape :=
  if s > 1 then do
    let y ← b1 x
    let z ← b2 x
    cat y z
  else do
    let z ← b2 ⟨x.c / 2, x.h, x.w⟩
    cat ⟨x.c - x.c / 2, x.h, x.w⟩ z

/-- Forward of a ShuffleNet unit; channel_shuffle needs an even number of
channels. -/
def unitRun (s : ℕ) (b1 b2 : Shape → Except Err Shape) (x : Shape) : Except Err Shape := do
  let o ← branches s b1 b2 x
  if o.c % 2 = 0 then .ok o else .error .runtime

/-- ShuffleBlock (shufflenet_series.py 69-128). -/
def shuffleRun (cin cout s k : ℕ) (x : Shape) : Except Err Shape :=
  let b := cout / 2
  unitRun s (convs cin [(cin, k, s), (b, 1, 1)])
    (convs (if s > 1 then cin else b) [(b, 1, 1), (b, k, s), (b, 1, 1)]) x

/-- ShuffleXception (shufflenet_series.py 182-262): each separable convolution
is a depthwise and a pointwise one. -/
def xceptionRun (cin cout s : ℕ) (x : Shape) : Except Err Shape :=
  let b := cout / 2
  let c2 := if s > 1 then cin else b
  unitRun s (convs cin [(cin, 3, s), (b, 1, 1)])
    (convs c2 [(c2, 3, s), (b, 1, 1), (b, 3, 1), (b, 1, 1), (b, 3, 1), (b, 1, 1)]) x

/-- `x[:, :, 1:, 1:]` -/
def crop (x : Shape) : Shape := ⟨x.c, x.h - 1, x.w - 1⟩

/-- DartsSkipConnect.forward (darts_series.py 157-168). -/
def skipRun (cin cout s : ℕ) (x : Shape) : Except Err Shape :=
  if s > 1 then do
    let y ← conv cin (cout / 2) 1 2 0 1 x
    let z ← conv cin (cout / 2) 1 2 0 1 (crop x)
    let o ← cat y z
    keep cout o
  else .ok x

/-- The forward functions: MBBlock; Identity (common.py 32-49); ShuffleBlock;
ShuffleXception; ConvBnAct (efficientnet_series.py 56-81; its
squeeze-and-excitation layer is built but not applied); DepthwiseSeparableConv
(129-172); DartsPoolBN (darts_series.py 22-38), DartsDilConv (56-76),
DartsSepConv (90-126), DartsSkipConnect, DartsZero (177-180). -/
def Op.run (cin cout s : ℕ) : Op → Shape → Except Err Shape
  | .mb k e se att, x =>
    mbRun (cin * e ≠ cin) (s = 1 ∧ cin = cout ∧ att = false) se att cin cout s k e x
  | .identity, x => if s ≠ 1 ∨ cin ≠ cout then conv cin cout 1 s 0 1 x else .ok x
  | .shuffle k, x => shuffleRun cin cout s k x
  | .xception, x => xceptionRun cin cout s x
  | .convBnAct k p sk, x => do
    let o ← conv cin cout k s p 1 x
    if sk = true ∧ s = 1 ∧ cin = cout then addTo o x else .ok o
  | .dsConv k se noskip, x => do
    let o ← conv cin cin k s (k / 2) 1 x
    let o ← opt se (keep cout) o
    let o ← conv cin cout 1 1 0 1 o
    if (s = 1 ∧ cin = cout) ∧ noskip = false then addTo o x else .ok o
  | .poolBN k, x => do
    let o ← pool k s 1 x
    keep cout o
  | .dilConv k, x => do
    let o ← conv cin cin k s (k / 2 * 2) 2 x
    let o ← conv cin cout 1 1 0 1 o
    keep cin o
  | .sepConv k, x => do
    let o ← conv cin cin k s (k / 2) 1 x
    let o ← conv cin cin 1 1 0 1 o
    let o ← conv cin cout k 1 (k / 2) 1 o
    conv cout cout 1 1 0 1 o
  | .skip, x => skipRun cin cout s x
  | .zero, x => .ok ⟨x.c, (x.h + s - 1) / s, (x.w + s - 1) / s⟩

end Verif.SearchOps
