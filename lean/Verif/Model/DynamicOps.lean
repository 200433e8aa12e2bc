import Verif.Py
import Mathlib.Algebra.BigOperators.Group.List.Basic

/-! Model of the dynamic linear and convolution layers:
`mmrazor/models/architectures/dynamic_ops/mixins/dynamic_mixins.py` (`DynamicLinearMixin`)
and `dynamic_conv_mixins.py` (`DynamicConvMixin`).

A weight is a list of rows, one for each output channel; an entry `W` is the kernel of one
pair of channels (a number for a linear layer), `X` is the data of one input channel, `Y`
of one output channel, and `corr` is what the layer does with one kernel and one channel
(multiplication for a linear layer, correlation with its stride, padding and dilation for
a convolution). Batch dimensions are part of `X` and `Y`. -/

namespace Verif.DynamicOps
open Verif

variable {W X Y B : Type}

/-- `tensor[mask]` along the first dimension, for a mask of the right length. -/
def select {α : Type} : List Bool → List α → List α
  | true :: m, x :: xs => x :: select m xs
  | false :: m, _ :: xs => select m xs
  | _, _ => []

/-- `tensor[mask]`: an `IndexError` if the lengths differ. -/
def maskIndex {α : Type} (m : List Bool) (xs : List α) : Except Err (List α) :=
  if m.length = xs.length then .ok (select m xs) else .error .index

/-- Number of active channels, `mask.sum()`. -/
def count (m : List Bool) : Nat := (m.filter id).length

/-- A tensor whose first dimension has `n * k` entries, seen as `n` blocks of `k`. -/
def chunks {α : Type} (n k : Nat) (xs : List α) : List (List α) :=
  (List.range n).map fun r => (xs.drop (r * k)).take k

/-- Weight with the size of its second dimension (`weight.size(1)`). -/
structure Weight (W : Type) where
  rows : List (List W)
  cols : Nat

/-- One output channel: the sum over the input channels. -/
def dot [AddCommMonoid Y] (corr : W → X → Y) (xs : List X) (row : List W) : Y :=
  (List.zipWith corr row xs).sum

/-- Adding the bias of each channel, if there is one. -/
def addBias [Add Y] (bc : B → Y) : Option (List B) → List Y → List Y
  | none, ys => ys
  | some bs, ys => List.zipWith (fun b y => y + bc b) bs ys

/-- `F.conv2d` (PyTorch; `F.linear` is the case of one group): `groups` layers side by
side on consecutive blocks of channels. Sizes that do not fit are `RuntimeError`s. -/
def convFn [AddCommMonoid Y] (corr : W → X → Y) (bc : B → Y) (x : List X) (w : Weight W) (b : Option (List B))
    (groups : Nat) : Except Err (List Y) :=
  if groups = 0 ∨ w.rows.length % groups ≠ 0 ∨ x.length ≠ w.cols * groups ∨
      (∃ bs, b = some bs ∧ bs.length ≠ w.rows.length) then .error .runtime
  else .ok (addBias bc b ((List.zipWith (fun rows xs => rows.map (dot corr xs))
    (chunks groups (w.rows.length / groups) w.rows) (chunks groups w.cols x)).flatten))

instance (b : Option (List B)) (n : Nat) : Decidable (∃ bs, b = some bs ∧ bs.length ≠ n) :=
  match b with
  | none => isFalse (by simp)
  | some bs => if h : bs.length = n then isFalse (by simp [h]) else isTrue ⟨bs, rfl, h⟩

/-! ### Linear -/

/-- `DynamicLinear`: the parameters and the registered masks. -/
structure Linear (W B : Type) where
  inF : Nat
  outF : Nat
  weight : List (List W)
  bias : Option (List B)
  inMask : Option (List Bool)
  outMask : Option (List Bool)

/-- `_register_mutable_in_features`, dynamic_mixins.py lines 326-344. -/
def Linear.registerIn (l : Linear W B) (m : List Bool) : Except Err (Linear W B) :=
  if m.length ≠ l.inF then .error .value else .ok { l with inMask := some m }

/-- `_register_mutable_out_features`, dynamic_mixins.py lines 346-364. -/
def Linear.registerOut (l : Linear W B) (m : List Bool) : Except Err (Linear W B) :=
  if m.length ≠ l.outF then .error .value else .ok { l with outMask := some m }

/-- The bias under a mask: `self.bias[out_mask] if self.bias is not None else None`. -/
def biasIndex (m : List Bool) : Option (List B) → Except Err (Option (List B))
  | none => .ok none
  | some bs => do
    let b ← maskIndex m bs
    pure (some b)

/-- `weight[out_mask][:, in_mask]` and `bias[out_mask]`. -/
def dense (inM outM : List Bool) (weight : List (List W)) (bias : Option (List B)) :
    Except Err (Weight W × Option (List B)) := do
  let rows ← maskIndex outM weight
  let rows' ← rows.mapM (maskIndex inM)
  let b ← biasIndex outM bias
  pure (⟨rows', count inM⟩, b)

/-- `get_dynamic_params`, dynamic_mixins.py lines 366-391. -/
def Linear.params (l : Linear W B) : Except Err (Weight W × Option (List B)) :=
  if l.inMask = none ∧ l.outMask = none then .ok (⟨l.weight, l.inF⟩, l.bias)
  else dense (l.inMask.getD (List.replicate l.inF true)) (l.outMask.getD (List.replicate l.outF true)) l.weight l.bias

/-- `DynamicLinear.forward`, dynamic_linear.py lines 49-53. -/
def Linear.forward [AddCommMonoid Y] (corr : W → X → Y) (bc : B → Y) (l : Linear W B) (x : List X) :
    Except Err (List Y) := do
  let (w, b) ← l.params
  convFn corr bc x w b 1

/-- `to_static_op`, dynamic_mixins.py lines 393-412. Masks are never checked for being
fixed (`check_if_mutables_fixed` skips them, lines 82-85). -/
def Linear.toStatic (l : Linear W B) : Except Err (Linear W B) := do
  let (w, b) ← l.params
  pure ⟨w.cols, w.rows.length, w.rows, b, none, none⟩

/-! ### Convolution -/

/-- `DynamicConv2d`: the parameters and the registered masks. -/
structure Conv (W B : Type) where
  inC : Nat
  outC : Nat
  groups : Nat
  weight : List (List W)
  bias : Option (List B)
  inMask : Option (List Bool)
  outMask : Option (List Bool)

/-- `_register_mutable_in_channels`, dynamic_conv_mixins.py lines 78-98. -/
def Conv.registerIn (c : Conv W B) (m : List Bool) : Except Err (Conv W B) :=
  if m.length ≠ c.inC then .error .value else .ok { c with inMask := some m }

/-- `_register_mutable_out_channels`, dynamic_conv_mixins.py lines 100-120. -/
def Conv.registerOut (c : Conv W B) (m : List Bool) : Except Err (Conv W B) :=
  if m.length ≠ c.outC then .error .value else .ok { c with outMask := some m }

/-- The group-wise branch, dynamic_conv_mixins.py lines 176-193: both masks are cut into
groups, each group must keep the same number, and the kept entries of the flattened weight
are arranged in rows again. -/
def grouped (groups inC outC : Nat) (inM outM : List Bool) (weight : List (List W)) (bias : Option (List B)) :
    Except Err (Weight W × Option (List B)) :=
  let ins := chunks groups (inC / groups) inM
  let outs := chunks groups (outC / groups) outM
  let ipg := count (ins.headD [])
  if ∃ m ∈ ins, count m ≠ ipg then .error .assertion
  else
    let opg := count (outs.headD [])
    if ∃ m ∈ outs, count m ≠ opg then .error .assertion
    else do
      let mask := (List.zipWith (fun (o i : List Bool) => (o.map fun a => i.map (a && ·)).flatten) outs ins).flatten
      let ws ← maskIndex mask weight.flatten
      let b ← biasIndex outM bias
      pure (⟨chunks (groups * opg) ipg ws, ipg⟩, b)

/-- `_get_dynamic_params_by_mutable_channels`, dynamic_conv_mixins.py lines 147-195. -/
def Conv.params (c : Conv W B) : Except Err (Weight W × Option (List B)) :=
  if c.inMask = none ∧ c.outMask = none then .ok (⟨c.weight, c.inC / c.groups⟩, c.bias)
  else
    let inM := c.inMask.getD (List.replicate c.inC true)
    let outM := c.outMask.getD (List.replicate c.outC true)
    if c.groups = 1 then dense inM outM c.weight c.bias
    else if c.groups = c.inC ∧ c.inC = c.outC then do
      let rows ← maskIndex outM c.weight
      let b ← biasIndex outM c.bias
      pure (⟨rows, c.inC / c.groups⟩, b)
    else grouped c.groups c.inC c.outC inM outM c.weight c.bias

/-- `forward_mixin`, dynamic_conv_mixins.py lines 197-205. -/
def Conv.forward [AddCommMonoid Y] (corr : W → X → Y) (bc : B → Y) (c : Conv W B) (x : List X) :
    Except Err (List Y) := do
  let groups := if c.groups = c.inC ∧ c.inC = c.outC then x.length else c.groups
  let (w, b) ← c.params
  convFn corr bc x w b groups

/-- The number of groups of the exported layer, dynamic_conv_mixins.py lines 216-220. -/
def Conv.staticGroups (c : Conv W B) : Nat :=
  match c.inMask with
  | some m => if c.groups = c.inC ∧ c.inC = c.outC then count m else c.groups
  | none => c.groups

/-- `to_static_op`, dynamic_conv_mixins.py lines 207-241; `nn.Conv2d` refuses numbers of
channels that are not multiples of the groups. -/
def Conv.toStatic (c : Conv W B) : Except Err (Conv W B) := do
  let (w, b) ← c.params
  let groups := c.staticGroups
  if groups = 0 ∨ w.rows.length % groups ≠ 0 then throw .value
  pure ⟨w.cols * groups, w.rows.length, groups, w.rows, b, none, none⟩

/-- Forward of a static `nn.Conv2d` (PyTorch). -/
def Conv.staticForward [AddCommMonoid Y] (corr : W → X → Y) (bc : B → Y) (c : Conv W B) (x : List X) :
    Except Err (List Y) :=
  convFn corr bc x ⟨c.weight, c.inC / c.groups⟩ c.bias c.groups

end Verif.DynamicOps
