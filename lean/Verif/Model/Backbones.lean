/-
Model of the searchable convolutional backbones of
/repo/mmrazor/models/architectures/backbones: searchable_mobilenet_v2.py,
searchable_shufflenet_v2.py and searchable_mobilenet_v3.py.

Feature maps are modelled by their shapes, see SearchOps.  The numbers of
channels after widening (`make_divisible`, `round`; see C01) are given.
-/
import Verif.Model.SearchOps

namespace Verif.Backbones
open Verif SearchOps

/-! ### SearchableMobileNetV2 and SearchableShuffleNetV2 -/

/-- `module_kwargs` of a block. -/
structure Blk where
  cin : ℕ
  cout : ℕ
  s : ℕ
  deriving DecidableEq, Repr

/-- A stage of `arch_setting` with the widened number of channels and the names
of the candidate operations. -/
structure Stage where
  width : ℕ
  blocks : ℕ
  stride : ℕ
  cands : List Op
  deriving DecidableEq, Repr

/-- The loop of `_make_layer` (searchable_mobilenet_v2.py 177-189;
searchable_shufflenet_v2.py 154-164, where the first stride is 2): the blocks
from number `i` on, and `self.in_channels` afterwards. -/
def blksFrom (out : ℕ) : ℕ → ℕ → ℕ → ℕ → List Blk × ℕ
  | 0, _, cin, _ => ([], cin)
  | n + 1, i, cin, stride =>
    let stride := if 1 ≤ i then 1 else stride
    let r := blksFrom out n (i + 1) out stride
    (⟨cin, out, stride⟩ :: r.1, r.2)

/-- `_make_layer`: the mutable of every block builds all its candidates. -/
def makeLayer (cin : ℕ) (st : Stage) : Except Err (List Blk × ℕ) := do
  let r := blksFrom st.width st.blocks 0 cin st.stride
  let _ ← r.1.mapM (fun b => st.cands.mapM (Op.make b.cin b.cout b.s))
  .ok r

/-- The loop over `arch_setting` (searchable_mobilenet_v2.py 129-140;
searchable_shufflenet_v2.py 120-125). -/
def makeLayers : ℕ → List Stage → Except Err (List (List Blk) × ℕ)
  | cin, [] => .ok ([], cin)
  | cin, st :: l => do
    let r ← makeLayer cin st
    let r2 ← makeLayers r.2 l
    .ok (r.1 :: r2.1, r2.2)

/-- A constructed backbone: channels of the stem, blocks of the layers, channels
before and after the last convolution (if there is one), indices of the
outputs. -/
structure Net where
  stem : ℕ
  layers : List (List Blk)
  lastIn : ℕ
  lastOut : Option ℕ
  outIdx : List ℤ
  deriving DecidableEq, Repr

/-- The constructors (searchable_mobilenet_v2.py 94-157 with `indices = 8`;
searchable_shufflenet_v2.py 86-135 with 5 or 4 `indices`). -/
def makeNet (indices : ℤ) (stem : ℕ) (stages : List Stage) (lastOut : Option ℕ)
    (outIdx : List ℤ) (frozen : ℤ) : Except Err Net :=
  if outIdx.any (fun i => !(decide (0 ≤ i ∧ i < indices))) then .error .value
  else if ¬ (-1 ≤ frozen ∧ frozen < indices) then .error .value
  else do
    let r ← makeLayers stem stages
    .ok ⟨stem, r.1, r.2, lastOut, outIdx⟩

/-- Forward of a layer with the chosen operations. -/
def runLayer : List (Blk × Op) → Shape → Except Err Shape
  | [], x => .ok x
  | (b, op) :: l, x => do
    let y ← op.run b.cin b.cout b.s x
    runLayer l y

/-- The loop of `forward` (searchable_mobilenet_v2.py 199-208,
searchable_shufflenet_v2.py 207-215): apply the layers in order and collect the
outputs asked for. -/
def runAll (outIdx : List ℤ) : ℤ → List (Shape → Except Err Shape) → Shape →
    Except Err (List Shape)
  | _, [], _ => .ok []
  | i, f :: fs, x => do
    let y ← f x
    let rest ← runAll outIdx (i + 1) fs y
    .ok (if i ∈ outIdx then y :: rest else rest)

/-- The last 1x1 convolution, if there is one. -/
def lastLayer (n : Net) : List (Shape → Except Err Shape) :=
  match n.lastOut with
  | some c => [conv n.lastIn c 1 1 0 1]
  | none => []

/-- `forward`: `choice` gives the operations chosen in each layer. -/
def runNet (n : Net) (choice : List (List Op)) (x : Shape) : Except Err (List Shape) := do
  let y ← conv 3 n.stem 3 2 1 1 x
  runAll n.outIdx 0 (List.zipWith (fun bs ops => runLayer (bs.zip ops)) n.layers choice
    ++ lastLayer n) y

/-! ### AttentiveMobileNetV3 -/

/-- The settings of a layer: the candidates and the static attributes. -/
structure VStage where
  chans : List ℕ
  kernels : List ℕ
  ratios : List ℕ
  depths : List ℕ
  stride : ℕ
  se : Bool
  deriving DecidableEq, Repr

/-- What is chosen for a layer: output channels, number of blocks, and for each
block kernel size and expand ratio (the same for all blocks unless
`fine_grained_mode`). -/
structure VChoice where
  c : ℕ
  d : ℕ
  k : ℕ → ℕ
  r : ℕ → ℕ

/-- `max` of a candidate list. -/
def top (l : List ℕ) : ℕ := l.foldr max 0

/-- The blocks of a layer built by `_make_single_layer`
(searchable_mobilenet_v3.py 218-247), run for the first `d` of them
(DynamicSequential.forward), with the mutables of `register_mutables` (261-303):
`mIn` is the static and `cin` the chosen number of input channels. -/
def runV (att : Bool) (st : VStage) (ch : VChoice) :
    ℕ → ℕ → ℕ → ℕ → Shape → Except Err Shape
  | 0, _, _, _, x => .ok x
  | n + 1, i, mIn, cin, x => do
    let s := if 1 ≤ i then 1 else st.stride
    let y ← mbRun (mIn * top st.ratios ≠ mIn)
      (s = 1 ∧ mIn = top st.chans ∧ att = false) st.se att cin ch.c s (ch.k i) (ch.r i) x
    runV att st ch n (i + 1) (top st.chans) ch.c y

/-- A layer as a function; the depth chosen is at most the number of blocks
built. -/
def layerV (att : Bool) (mIn cin : ℕ) (st : VStage) (ch : VChoice) (x : Shape) :
    Except Err Shape :=
  runV att st ch (min ch.d (top st.depths)) 0 mIn cin x

/-- All layers; the chosen input channels of a layer are the output channels of
the one before (`mid_mutable`). -/
def layersV (att : Bool) : ℕ → ℕ → List (VStage × VChoice) →
    List (Shape → Except Err Shape) × ℕ
  | _, cin, [] => ([], cin)
  | mIn, cin, (st, ch) :: l =>
    let r := layersV att (top st.chans) ch.c l
    (layerV att mIn cin st ch :: r.1, r.2)

/-- `last_conv` (searchable_mobilenet_v3.py 177-198, 305-323): expand, pool to 1x1,
mix. -/
def lastV (cin ratio cout : ℕ) (x : Shape) : Except Err Shape := do
  let y ← conv cin (cin * ratio) 1 1 0 1 x
  conv (cin * ratio) cout 1 1 0 1 ⟨y.c, 1, 1⟩

/-- `forward` (searchable_mobilenet_v3.py 325-333). -/
def runNetV (att : Bool) (outIdx : List ℤ) (mFirst first : ℕ) (l : List (VStage × VChoice))
    (ratio last : ℕ) (x : Shape) : Except Err (List Shape) := do
  let y ← conv 3 first 3 2 1 1 x
  let r := layersV att mFirst first l
  runAll outIdx 0 (r.1 ++ [lastV r.2 ratio last]) y

/-- `act_cfg_list` (searchable_mobilenet_v3.py 113-114, 132-133, 171):
activations of the stem, the `n` layers and the last layer, and the caller's
list afterwards.  `none` stands for the argument not being given; an empty list
is treated like that, but then a fresh default list is changed. -/
def takeActs {α : Type} (swish : α) (n : ℕ) (given : List α) :
    Except Err (α × List α × α) × List α :=
  match (if given.isEmpty then List.replicate 9 swish else given) with
  | [] => (.error .index, given)
  | a :: rest =>
    let seen (l : List α) := if given.isEmpty then given else l
    match rest.getLast? with
    | none => (.error .index, seen rest)
    | some z =>
      if rest.dropLast.length < n then (.error .index, seen rest.dropLast)
      else (.ok (a, rest.dropLast.take n, z), seen rest.dropLast)

/-! ### Freezing -/

/-- A layer: training mode of the layer, training mode of its batch norms,
whether its parameters are trained. -/
structure Part where
  train : Bool
  bn : Bool
  grad : Bool
  deriving DecidableEq, Repr

/-- The stem, the layers `layer1`, ... and the last layer. -/
structure Parts where
  stem : Part
  layers : List Part
  last : Part
  deriving DecidableEq, Repr

/-- `m.eval()` and `requires_grad = False`. -/
def Part.freeze (_ : Part) : Part := ⟨false, false, false⟩

/-- `_freeze_stages` (searchable_mobilenet_v2.py 210-219,
searchable_mobilenet_v3.py 357-366, searchable_shufflenet_v2.py 168-178): asking
for more layers than there are raises AttributeError (for ShuffleNet, whose last
layer is in the same list, the bound of the constructor excludes it). -/
def freezeStages (frozen : ℤ) (p : Parts) : Except Err Parts :=
  let p := if 0 ≤ frozen then { p with stem := { p.stem with grad := false } } else p
  if p.layers.length < frozen.toNat then .error .attribute
  else .ok { p with layers := (p.layers.take frozen.toNat).map Part.freeze
                              ++ p.layers.drop frozen.toNat }

/-- `nn.Module.train(mode)`. -/
def Part.setMode (mode : Bool) (p : Part) : Part := { p with train := mode, bn := mode }

/-- `train` (searchable_mobilenet_v2.py 221-230). -/
def train (frozen : ℤ) (normEval mode : Bool) (p : Parts) : Except Err Parts := do
  let p : Parts := ⟨p.stem.setMode mode, p.layers.map (Part.setMode mode), p.last.setMode mode⟩
  let p ← freezeStages frozen p
  if mode && normEval then
    .ok ⟨{ p.stem with bn := false }, p.layers.map (fun q => { q with bn := false }),
      { p.last with bn := false }⟩
  else .ok p

end Verif.Backbones
