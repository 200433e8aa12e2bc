import Verif.Py
import Mathlib.Algebra.Order.BigOperators.Group.List
import Mathlib.Data.Real.Basic
import Mathlib.Algebra.Module.LinearMap.Defs

/-! Model of `mmrazor/models/architectures/backbones/wideresnet.py`: which layers a wide residual
network is built of, and which shapes pass through it.

Feature maps are square and described by channels and side length. Not modelled: weights (but see
`blockValue`), dropout (its rate is not passed to blocks, line 199, and is zero), training modes. -/

namespace Verif.WideNet
open Verif

/-- A convolution. -/
structure Conv where
  cin : ℕ
  cout : ℕ
  k : ℕ
  stride : ℕ
  pad : ℕ
  dil : ℕ
  deriving DecidableEq

/-- `BasicBlock`, lines 15-95. -/
structure Block where
  norm1 : ℕ
  conv1 : Conv
  norm2 : ℕ
  conv2 : Conv
  down : Option Conv
  deriving DecidableEq

/-- The arguments of `WideResNet`. `bn` says whether the norm layer is a kind of batch norm, so
that its name begins with `bn`. -/
structure Cfg where
  depth : ℕ
  widen : ℕ := 4
  inCh : ℕ := 3
  stem : ℕ := 16
  base : ℕ := 16
  expansion : Option ℤ := none
  numStages : ℕ := 3
  strides : List ℕ := [1, 2, 2]
  dilations : List ℕ := [1, 1, 1]
  frozen : ℤ := -1
  bn : Bool := true
  deriving DecidableEq

/-- The network. -/
structure Net where
  stem : Conv
  stages : List (List Block)
  norm : ℕ
  feat : ℕ
  bn : Bool
  deriving DecidableEq

/-- `arch_setting`, lines 262-268. -/
def archSetting (depth : ℕ) : Option (List ℕ) :=
  if depth = 10 then some [1, 1, 1]
  else if depth = 16 then some [2, 2, 2]
  else if depth = 22 then some [3, 3, 3]
  else if depth = 28 then some [4, 4, 4]
  else if depth = 40 then some [6, 6, 6]
  else none

/-- `get_expansion` for `BasicBlock`, which has no attribute `expansion` of the class, lines
124-153. -/
def getExpansion (widen : ℕ) : Option ℤ → Except Err ℕ
  | some e => if 0 < e then .ok e.toNat else .error .assertion
  | none => .ok widen

/-- A block, lines 60-87. -/
def mkBlock (cin cout stride dil : ℕ) (down : Option Conv) : Block :=
  ⟨cin, ⟨cin, cout, 3, stride, dil, dil⟩, cout, ⟨cout, cout, 3, 1, 1, 1⟩, down⟩

/-- The shortcut of a stage, lines 190-199. -/
def mkDown (cin cout stride : ℕ) : Option Conv :=
  if stride ≠ 1 ∨ cin ≠ cout then some ⟨cin, cout, 1, stride, 0, 1⟩ else none

/-- `ResLayer`, lines 174-226. -/
def resLayer (numBlocks cin cout stride dil : ℕ) : List Block :=
  mkBlock cin cout stride dil (mkDown cin cout stride) ::
    List.replicate (numBlocks - 1) (mkBlock cout cout 1 dil none)

/-- The loop over the stages, lines 320-338: the stages and the last `_out_channels`. -/
def mkStages (c : Cfg) : List ℕ → ℕ → ℕ → ℕ → Except Err (List (List Block) × ℕ)
  | [], _, _, cout => .ok ([], cout)
  | n :: l, i, cin, cout =>
    match c.strides[i]? with
    | none => .error .index
    | some s =>
      match c.dilations[i]? with
      | none => .error .index
      | some d =>
        match mkStages c l (i + 1) cout (cout * 2) with
        | .error e => .error e
        | .ok (st, out) => .ok (resLayer n cin cout s d :: st, out)

/-- The end of the constructor, lines 340-347: freezing comes before the last norm layer is
made; without a stage `res_layer` is not bound. -/
def finish (c : Cfg) (stages : List (List Block)) (out : ℕ) : Except Err Net :=
  if 0 ≤ c.frozen then .error .attribute
  else
    match stages.getLast? with
    | none => .error .name
    | some l =>
      match l.getLast? with
      | none => .error .index
      | some b => .ok ⟨⟨c.inCh, c.stem, 3, 1, 1, 1⟩, stages, out / 2, b.conv2.cout, c.bn⟩

/-- `WideResNet.__init__`, lines 270-348. -/
def build (c : Cfg) : Except Err Net :=
  match archSetting c.depth with
  | none => .error .key
  | some l =>
    match getExpansion c.widen c.expansion with
    | .error e => .error e
    | .ok x =>
      match mkStages c (l.take c.numStages) 0 c.stem (c.base * x) with
      | .error e => .error e
      | .ok (st, out) => finish c st out

/-- The convolutions of a block. -/
def Block.convs (b : Block) : List Conv := b.conv1 :: b.conv2 :: b.down.toList

/-- The convolutions of a network. -/
def Net.convs (n : Net) : List Conv := n.stem :: n.stages.flatten.flatMap Block.convs

/-- Channels and side length of a feature map. -/
abbrev Shape := ℕ × ℕ

/-- The shape a convolution returns. -/
def convShape (c : Conv) (x : Shape) : Except Err Shape :=
  if x.1 ≠ c.cin ∨ c.stride = 0 ∨ c.dil = 0 ∨ x.2 + 2 * c.pad < c.dil * (c.k - 1) + 1 then .error .runtime
  else .ok (c.cout, (x.2 + 2 * c.pad - c.dil * (c.k - 1) - 1) / c.stride + 1)

/-- A norm layer. -/
def normShape (n : ℕ) (x : Shape) : Except Err Shape :=
  if x.1 ≠ n then .error .runtime else .ok x

/-- The shortcut of `BasicBlock.forward`, lines 117-120: the input of `downsample` is the
activated map, which has the shape of the input. -/
def shortcut (b : Block) (x : Shape) : Except Err Shape :=
  match b.down with
  | some c => convShape c x
  | none => .ok x

/-- `out += …`. Shapes which could be broadcast are taken as an error. -/
def addShape (x y : Shape) : Except Err Shape := if x = y then .ok x else .error .runtime

/-- `BasicBlock.forward`, lines 100-121; `bn1` and `bn2` are attributes only if the norm layers
have these names. -/
def blockShape (bn : Bool) (b : Block) (x : Shape) : Except Err Shape := do
  if bn = false then .error .attribute else .ok ()
  let x ← normShape b.norm1 x
  let y ← convShape b.conv1 x
  let y ← normShape b.norm2 y
  let y ← convShape b.conv2 y
  let z ← shortcut b x
  addShape y z

/-- A sequence of blocks. -/
def seqShape (bn : Bool) : List Block → Shape → Except Err Shape
  | [], x => .ok x
  | b :: l, x =>
    match blockShape bn b x with
    | .error e => .error e
    | .ok y => seqShape bn l y

/-- `WideResNet.forward`, lines 395-403. -/
def forward (n : Net) (x : Shape) : Except Err Shape :=
  match convShape n.stem x with
  | .error e => .error e
  | .ok y =>
    match seqShape n.bn n.stages.flatten y with
    | .error e => .error e
    | .ok z => normShape n.norm z

/-- The values of a block without shortcut layer (lines 100-121), where the second norm layer is
a normalisation followed by a weight and a bias and `conv2` is linear. -/
noncomputable def blockValue {T U : Type} [AddCommGroup T] [Module ℝ T] [AddCommGroup U] [Module ℝ U]
    (conv1 : T → U) (norm : U → U) (relu : U → U) (w : ℝ) (b : U) (conv2 : U →ₗ[ℝ] T)
    (act1 : T → T) (x : T) : T :=
  conv2 (relu (w • norm (conv1 (act1 x)) + b)) + x

end Verif.WideNet
