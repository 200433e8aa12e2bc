import Mathlib.Algebra.BigOperators.Group.List.Basic
import Mathlib.Algebra.Order.Field.Rat
import Verif.Py
import Verif.Model.DynamicOps

/-!
Model of channel expansion, `/repo/mmrazor/models/utils/expandable_utils/`
(`ops.py`, `unit.py`, `tools.py`).

A weight is a nested list `out × in × kernel`.  A network is an expression over
the operations the channel analyser knows; the value of a channel is an element
of `X` (a feature map), so that a convolution is given by what one kernel does
to one channel.  New weights that are not zeroed come from an initialisation
oracle.
-/
namespace Verif.Expand
open Verif.DynamicOps (select chunks)

/-- `Tensor.masked_scatter_(mask, source)`: the positions of the mask receive,
in order, the elements of the source; too few elements raise. -/
def scatter {α : Type} : List Bool → List α → List α → Except Err (List α)
  | true :: m, s :: src, _ :: base => (s :: ·) <$> scatter m src base
  | true :: _, [], _ :: _ => .error .runtime
  | false :: m, src, b :: base => (b :: ·) <$> scatter m src base
  | [], _, [] => .ok []
  | _, _, _ => .error .runtime

/-- `expand_matrix`, ops.py 98-108 (`base` is the flat new weight). -/
def expandMatrix (mo mi : List Bool) (c : Nat) (base : List ℚ) (old : List (List (List ℚ))) :
    Except Err (List (List (List ℚ))) := do
  let mask := mo.flatMap fun o => mi.flatMap fun i => List.replicate c (o && i)
  let flat ← scatter mask (old.map List.flatten).flatten base
  pure ((chunks mo.length (mi.length * c) flat).map (chunks mi.length c))

/-- `expand_vector`, ops.py 110-118. -/
def expandVector (mo : List Bool) (c : Nat) (base : List ℚ) (old : List (List ℚ)) :
    Except Err (List (List ℚ)) := do
  let flat ← scatter (mo.flatMap fun o => List.replicate c o) old.flatten base
  pure (chunks mo.length c flat)

/-- `expand_bias`, ops.py 120-126. -/
def expandBias (mo : List Bool) (base old : List ℚ) : Except Err (List ℚ) := do
  let v ← expandVector mo 1 base (old.map ([·]))
  pure v.flatten

/-- The new weights before the old ones are copied: zeroed by `zero_weight_`
(ops.py 93-96) or freshly initialised. -/
def newWeights (zero : Bool) (init : List ℚ) (n : Nat) : List ℚ :=
  if zero then List.replicate n 0 else init

/-- The two supported shapes of `ExpandableConv2d.get_expand_op`, ops.py
139-146; `ExpandLinear` is the first with `groups = 1`. -/
inductive Kind where
  | normal
  | depthwise
deriving DecidableEq

def kindOf (groups inC outC : Nat) : Except Err Kind :=
  if groups = 1 then .ok .normal
  else if inC = outC ∧ outC = groups then .ok .depthwise
  else .error .notImplemented

/-- A convolution or linear layer: weight and optional bias. -/
structure Layer where
  c : Nat
  w : List (List (List ℚ))
  b : Option (List ℚ)
deriving DecidableEq

/-- The bias of the expanded layer, ops.py 159-163. -/
def expandOptBias (mo : List Bool) (zero : Bool) (init : List ℚ) :
    Option (List ℚ) → Except Err (Option (List ℚ))
  | none => .ok none
  | some b => do
      let b' ← expandBias mo (newWeights zero init mo.length) b
      pure (some b')

/-- `_get_expand_op_normal_conv`, ops.py 148-164, and `ExpandLinear.get_expand_op`,
ops.py 195-208. -/
def expandNormal (zero : Bool) (initW initB : List ℚ) (mo mi : List Bool) (l : Layer) :
    Except Err Layer := do
  let w ← expandMatrix mo mi l.c (newWeights zero initW (mo.length * (mi.length * l.c))) l.w
  let b ← expandOptBias mo zero initB l.b
  pure ⟨l.c, w, b⟩

/-- A depthwise convolution: one kernel per channel. -/
structure DwLayer where
  c : Nat
  w : List (List ℚ)
  b : Option (List ℚ)
deriving DecidableEq

/-- `_get_expand_op_dw_conv`, ops.py 166-182. -/
def expandDw (zero : Bool) (initW initB : List ℚ) (mo mi : List Bool) (l : DwLayer) :
    Except Err DwLayer :=
  if mi.length ≠ mo.length then .error .assertion
  else do
    let w ← expandVector mo l.c (newWeights zero initW (mo.length * l.c)) l.w
    let b ← expandOptBias mo zero initB l.b
    pure ⟨l.c, w, b⟩

/-- A batch norm.  `affine = none` is `affine=False`. -/
structure Norm where
  mean : List ℚ
  var : List ℚ
  affine : Option (List ℚ × List ℚ)
deriving DecidableEq

/-- `ExpandableBatchNorm2d.get_expand_op`, ops.py 221-238 (with running
statistics; new statistics are 0 and 1, they are buffers and not zeroed). -/
def expandNorm (zero : Bool) (initW initB : List ℚ) (mo : List Bool) (n : Norm) :
    Except Err Norm := do
  let mean ← expandBias mo (List.replicate mo.length 0) n.mean
  let var ← expandBias mo (List.replicate mo.length 1) n.var
  match n.affine with
  | none => .error .attribute
  | some (w, b) => do
      let w' ← expandBias mo (newWeights zero initW mo.length) w
      let b' ← expandBias mo (newWeights zero initB mo.length) b
      pure ⟨mean, var, some (w', b')⟩

/-- `ExpandableUnit.expand`, unit.py 28-31: append `num` new channels. -/
def expandUnit (num : Int) (mask : List Bool) : Except Err (List Bool) :=
  if num < 0 then .error .runtime else .ok (mask ++ List.replicate num.toNat false)

/-- `ExpandableUnit.expand_to`, unit.py 33-34.  `numChannels` is the attribute
of the unit, which is not updated. -/
def expandTo (numChannels : Nat) (num : Int) (mask : List Bool) : Except Err (List Bool) :=
  expandUnit (num - numChannels) mask

/-- The width `make_channel_divisible` asks for, tools.py 79-88; `none` when
the unit is skipped. -/
def divisibleWidth (num numChannels divisor : Nat) : Except Err (Option Nat) :=
  if divisor = 0 then .error .zeroDivision
  else if num % divisor = 0 then .ok none
  else .ok (some (max ((num / divisor + 1) * divisor) numChannels))

/-- The loop body of `make_channel_divisible` on a unit, tools.py 80-88: its
mask afterwards. -/
def makeDivisible (divisor numChannels : Nat) (mask : List Bool) : Except Err (List Bool) := do
  let t ← divisibleWidth (mask.count true) numChannels divisor
  match t with
  | none => pure mask
  | some n => expandTo numChannels n mask

/-! ### Networks -/

section
variable (X : Type)

/-- A network.  `conv` and `norm` carry the mask of their output unit after
expansion (all ones before).  `act k x` is what kernel `k` does to channel `x`,
`bias b` adds `b` to a feature map, `bn w b mean var` normalises a channel. -/
inductive Net where
  | input (n : Nat)
  | conv (act : List ℚ → X → X) (bias : ℚ → X) (mo : List Bool) (l : Layer) (e : Net)
  | dw (act : List ℚ → X → X) (bias : ℚ → X) (l : DwLayer) (e : Net)
  | norm (bn : ℚ → ℚ → ℚ → ℚ → X → X) (n : Norm) (e : Net)
  | chan (f : X → X) (e : Net)
  | spread (r : Nat) (f : Nat → X → X) (e : Net)
  | add (e e' : Net)
  | cat (e e' : Net)

end

variable {X : Type}

/-- The channel mask of the output of a network: the concatenation of the
masks of its units (`MutableChannelContainer.current_mask`). -/
def Net.mask : Net X → List Bool
  | .input n => List.replicate n true
  | .conv _ _ mo _ _ => mo
  | .dw _ _ _ e => e.mask
  | .norm _ _ e => e.mask
  | .chan _ e => e.mask
  | .spread r _ e => e.mask.flatMap fun m => List.replicate r m
  | .add e _ => e.mask
  | .cat e e' => e.mask ++ e'.mask

variable [AddCommGroup X]

/-- A convolution with dense channels. -/
def convForward (act : List ℚ → X → X) (bias : ℚ → X) (l : Layer) (x : List X) : List X :=
  let y := l.w.map fun row => (List.zipWith act row x).sum
  match l.b with
  | none => y
  | some b => List.zipWith (fun v t => v + bias t) y b

/-- A depthwise convolution. -/
def dwForward (act : List ℚ → X → X) (bias : ℚ → X) (l : DwLayer) (x : List X) : List X :=
  let y := List.zipWith act l.w x
  match l.b with
  | none => y
  | some b => List.zipWith (fun v t => v + bias t) y b

/-- A batch norm with given statistics. -/
def normForward (bn : ℚ → ℚ → ℚ → ℚ → X → X) (n : Norm) (x : List X) : List X :=
  let stats := n.mean.zip n.var
  let wb := match n.affine with
    | none => stats.map fun _ => (1, 0)
    | some (w, b) => w.zip b
  List.zipWith (fun p v => bn p.1.1 p.1.2 p.2.1 p.2.2 v) (wb.zip stats) x

/-- The forward pass. -/
def Net.eval (x : List X) : Net X → List X
  | .input _ => x
  | .conv act bias _ l e => convForward act bias l (e.eval x)
  | .dw act bias l e => dwForward act bias l (e.eval x)
  | .norm bn n e => normForward bn n (e.eval x)
  | .chan f e => (e.eval x).map f
  | .spread r f e => (e.eval x).flatMap fun v => (List.range r).map (f · v)
  | .add e e' => List.zipWith (· + ·) (e.eval x) (e'.eval x)
  | .cat e e' => e.eval x ++ e'.eval x

/-- `expand_expandable_dynamic_model`, tools.py 28-49: every dynamic operation
is replaced by its expansion.  The new weights of every layer are taken from
`init`. -/
def Net.expand (zero : Bool) (init : List ℚ) : Net X → Except Err (Net X)
  | .input n => .ok (.input n)
  | .conv act bias mo l e => do
      let e' ← e.expand zero init
      let l' ← expandNormal zero init init mo e.mask l
      pure (.conv act bias mo l' e')
  | .dw act bias l e => do
      let e' ← e.expand zero init
      let l' ← expandDw zero init init e.mask e.mask l
      pure (.dw act bias l' e')
  | .norm bn n e => do
      let e' ← e.expand zero init
      let n' ← expandNorm zero init init e.mask n
      pure (.norm bn n' e')
  | .chan f e => do
      let e' ← e.expand zero init
      pure (.chan f e')
  | .spread r f e => do
      let e' ← e.expand zero init
      pure (.spread r f e')
  | .add e₁ e₂ => do
      let e₁' ← e₁.expand zero init
      let e₂' ← e₂.expand zero init
      pure (.add e₁' e₂')
  | .cat e₁ e₂ => do
      let e₁' ← e₁.expand zero init
      let e₂' ← e₂.expand zero init
      pure (.cat e₁' e₂')

end Verif.Expand
