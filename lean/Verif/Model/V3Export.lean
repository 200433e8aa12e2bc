import Verif.Model.Backbones
import Verif.Model.Derived
import Verif.Model.Kernel

/-! Model of the layers of `AttentiveMobileNetV3`
(`architectures/backbones/searchable_mobilenet_v3.py`): those of the supernet, and those of the
subnet that is exported from it. A layer is given by its channels, kernel and stride; its weights are
in `Verif.DynamicOps`, shapes of feature maps in `Verif.Backbones`. -/

namespace Verif.V3Export
open Verif SeqChannel Backbones

/-- The layers of an `MBBlock`: 1x1 convolution in front (channels in, out), depthwise convolution
(channels, kernel, padding, stride), the two convolutions of the squeeze and excitation layer (wide,
narrow), 1x1 convolution behind, whether the input is added, the convolution of the attentive shortcut
(in, out, reduction). -/
structure Block where
  expand : Option (ℕ × ℕ)
  depthwise : ℕ × ℕ × ℕ × ℕ
  se : Option (ℕ × ℕ)
  linear : ℕ × ℕ
  res : Bool
  short : Option (ℕ × ℕ × ℕ)
  deriving DecidableEq, Repr

/-- The narrow width of a squeeze and excitation layer: `make_divisible(channels // 4, 8)`, in
`SELayer` (mmcls) and in `derive_divide_mutable(4, 8)`, derived_mutable.py lines 80-85. -/
def squeeze (c : ℕ) : ℕ :=
  match Derived.divideAndDivise c 4 8 with
  | .ok k => k.toNat
  | .error _ => 0

/-- `MBBlock.__init__`, mobilenet_series.py lines 91-165. -/
def mkBlock (att se : Bool) (cin cout k s r : ℕ) : Except Err Block :=
  if s = 1 ∨ s = 2 then
    let mid := cin * r
    .ok { expand := if mid ≠ cin then some (cin, mid) else none
          depthwise := (mid, k, k / 2, s)
          se := if se then some (mid, squeeze mid) else none
          linear := (mid, cout)
          res := decide (s = 1 ∧ cin = cout) && !att
          short := if att then some (cin, cout, s) else none }
  else .error .assertion

/-- The blocks of a layer, `_make_single_layer`, searchable_mobilenet_v3.py lines 218-247: `n` of them,
from number `i` on. -/
def mkBlocks (att : Bool) (st : VStage) : ℕ → ℕ → ℕ → Except Err (List Block)
  | 0, _, _ => .ok []
  | n + 1, i, cin =>
    match mkBlock att st.se cin (top st.chans) (top st.kernels) (if 1 ≤ i then 1 else st.stride) (top st.ratios) with
    | .error e => .error e
    | .ok b =>
      match mkBlocks att st n (i + 1) (top st.chans) with
      | .error e => .error e
      | .ok bs => .ok (b :: bs)

/-- All layers, `_make_layer`, searchable_mobilenet_v3.py lines 145-198: the blocks, and the input
channels of what follows (a layer without blocks leaves them alone). -/
def mkLayers (att : Bool) : ℕ → List VStage → Except Err (List (List Block) × ℕ)
  | cin, [] => .ok ([], cin)
  | cin, st :: l =>
    match mkBlocks att st (top st.depths) 0 cin with
    | .error e => .error e
    | .ok bs =>
      match mkLayers att (if top st.depths = 0 then cin else top st.chans) l with
      | .error e => .error e
      | .ok r => .ok (bs :: r.1, r.2)

/-- The network: width of the stem, the layers, and the two convolutions of the last layer. -/
structure Net where
  stem : ℕ
  layers : List (List Block)
  last : (ℕ × ℕ) × (ℕ × ℕ)
  deriving DecidableEq, Repr

/-- The candidates of a network. -/
structure Space where
  att : Bool
  first : List ℕ
  stages : List VStage
  lastRatios : List ℕ
  lastChans : List ℕ

/-- The network that is built, searchable_mobilenet_v3.py lines 145-198. -/
def mkNet (s : Space) : Except Err Net :=
  match mkLayers s.att (top s.first) s.stages with
  | .error e => .error e
  | .ok r => .ok ⟨top s.first, r.1, (r.2, r.2 * top s.lastRatios), (r.2 * top s.lastRatios, top s.lastChans)⟩

/-- The number of active channels of a mask of `size` entries whose first `choice` are set
(sequential_mutable_channel.py lines 45-53 and 87-103, derived_mutable.py lines 106-114). -/
def active (size choice : ℕ) : ℕ := popcount (prefixMask size choice)

/-- The static block of a block with the mutables of `mutate_mobilenet_layer`, mutable_register.py
lines 34-86, converted by `_dynamic_to_static`, fix_subnet.py lines 13-28. `mIn`, `mOut` and `mR` are
the static channels and the largest ratio. The flags of the block do not change; the padding is the
one of the chosen kernel. -/
def exportBlock (mIn mOut mR : ℕ) (b : Block) (cin cout k r : ℕ) : Except Err Block :=
  match Kernel.samePadding k with
  | .error e => .error e
  | .ok p =>
    let mid := active (mIn * mR) (cin * r)
    .ok { expand := b.expand.map fun _ => (active mIn cin, mid)
          depthwise := (mid, k, p, b.depthwise.2.2.2)
          se := b.se.map fun _ => (mid, active (squeeze (mIn * mR)) (squeeze (cin * r)))
          linear := (mid, active mOut cout)
          res := b.res
          short := b.short.map fun q => (active mIn cin, active mOut cout, q.2.2) }

/-- The static blocks of a layer, `register_mutables`, searchable_mobilenet_v3.py lines 264-303: `i` is
the number of the block. -/
def exportBlocks (st : VStage) (ch : VChoice) : ℕ → ℕ → ℕ → List Block → Except Err (List Block)
  | _, _, _, [] => .ok []
  | i, mIn, cin, b :: bs =>
    match exportBlock mIn (top st.chans) (top st.ratios) b cin ch.c (ch.k i) (ch.r i) with
    | .error e => .error e
    | .ok b' =>
      match exportBlocks st ch (i + 1) (top st.chans) ch.c bs with
      | .error e => .error e
      | .ok bs' => .ok (b' :: bs')

/-- All layers; of each the first blocks are kept (`DynamicSequential.to_static_op`,
dynamic_container.py lines 56-77). (The mutable of the output channels of a layer is that of the input
of the next one even if no block is kept.) -/
def exportLayers : ℕ → ℕ → List (VStage × VChoice) → List (List Block) → Except Err (List (List Block) × ℕ × ℕ)
  | mIn, cin, (st, ch) :: l, bs :: bss =>
    match exportBlocks st ch 0 mIn cin (bs.take ch.d) with
    | .error e => .error e
    | .ok bs' =>
      match exportLayers (top st.chans) ch.c l bss with
      | .error e => .error e
      | .ok r => .ok (bs' :: r.1, r.2)
  | mIn, cin, _, _ => .ok ([], mIn, cin)

/-- What is chosen. -/
structure Choice where
  first : ℕ
  stages : List VChoice
  lastRatio : ℕ
  lastChan : ℕ

/-- The exported subnet of the network `n` built from `s`, searchable_mobilenet_v3.py lines 249-323 and
fix_subnet.py lines 13-28. -/
def exportNet (s : Space) (ch : Choice) (n : Net) : Except Err Net :=
  match exportLayers (top s.first) ch.first (s.stages.zip ch.stages) n.layers with
  | .error e => .error e
  | .ok r =>
    let mid := active (r.2.1 * top s.lastRatios) (r.2.2 * ch.lastRatio)
    .ok ⟨active (top s.first) ch.first, r.1, (active r.2.1 r.2.2, mid), (mid, active (top s.lastChans) ch.lastChan)⟩

end Verif.V3Export
