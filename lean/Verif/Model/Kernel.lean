import Verif.Model.DynamicOps
import Mathlib.Algebra.BigOperators.Group.Finset.Basic
import Mathlib.Algebra.Ring.Basic

/-! Model of searchable kernel sizes: `BigNasConvMixin` and `OFAConvMixin` of
`mmrazor/models/architectures/dynamic_ops/mixins/dynamic_conv_mixins.py`, and of
`DynamicConv2dAdaptivePadding` of `bricks/dynamic_conv.py`.

The kernel of one pair of channels is a list of rows; every pair is treated alike. -/

namespace Verif.Kernel
open Verif DynamicOps

/-- `_get_current_kernel_pos`, dynamic_conv_mixins.py lines 28-45. -/
def kernelPos (src tar : Nat) : Except Err (Nat × Nat) :=
  if src < tar then .error .assertion else .ok (src / 2 - tar / 2, src / 2 + tar / 2 + 1)

/-- `_get_same_padding`, lines 48-53. -/
def samePadding (k : Nat) : Except Err Nat := if k % 2 = 1 then .ok (k / 2) else .error .assertion

/-- `weight[a:b, a:b]`. -/
def crop {R : Type} (a b : Nat) (w : List (List R)) : List (List R) :=
  ((w.take b).drop a).map fun r => (r.take b).drop a

/-- A layer with a searchable kernel: its largest size, its own padding, and, once a
mutable is registered, the sizes in increasing order and the current choice. -/
structure Layer (R : Type) where
  size : Nat
  padding : Nat
  weight : List (List R)
  sizes : Option (List Nat)
  choice : Option Nat

/-- `_register_mutable_kernel_size`, lines 262-294; `sorted` stands for Python's. -/
def Layer.register {R : Type} (l : Layer R) (sorted : List Nat → List Nat) (choices : List Nat) (choice : Option Nat) :
    Except Err (Layer R) :=
  match (sorted choices).getLast? with
  | none => .error .value
  | some m => if m ≠ l.size then .error .value
    else .ok { l with sizes := some (sorted choices), choice := choice }

/-- `_get_dynamic_params_by_mutable_kernel_size` of `BigNasConvMixin`, lines 314-342. -/
def Layer.params {R : Type} (l : Layer R) : Except Err (List (List R) × Nat) :=
  match l.sizes with
  | none => .ok (l.weight, l.padding)
  | some _ =>
    match l.choice with
    | none => .error .runtime
    | some t => do
      let p ← samePadding t
      if t = l.size then pure (l.weight, p)
      else do
        let (a, b) ← kernelPos l.size t
        pure (crop a b l.weight, p)

/-- `F.linear` of a vector with a matrix. -/
def applyMatrix {R : Type} [Semiring R] (M : List (List R)) (v : List R) : List R :=
  M.map fun row => (List.zipWith (· * ·) row v).sum

/-- The loop of `OFAConvMixin._get_dynamic_params_by_mutable_kernel_size`, lines 396-414,
over the sizes in decreasing order; `trans src tar` is the registered matrix. The reshape
fails if the crop is not `tar` by `tar` (it is taken for each kernel here). -/
def shrink {R : Type} [Semiring R] (trans : Nat → Nat → List (List R)) (t : Nat) :
    List Nat → List (List R) → Except Err (List (List R))
  | src :: tar :: rest, w =>
    if src ≤ t then .ok w
    else do
      let (a, b) ← kernelPos src tar
      let v := (crop a b w).flatten
      if v.length ≠ tar * tar then throw .runtime
      shrink trans t (tar :: rest) (chunks tar tar (applyMatrix (trans src tar) v))
  | _, w => .ok w

/-- `OFAConvMixin._get_dynamic_params_by_mutable_kernel_size`, lines 372-414. -/
def Layer.ofaParams {R : Type} [Semiring R] (trans : Nat → Nat → List (List R)) (l : Layer R) :
    Except Err (List (List R) × Nat) :=
  match l.sizes with
  | none => .ok (l.weight, l.padding)
  | some sizes =>
    match l.choice with
    | none => .error .runtime
    | some t => do
      let p ← samePadding t
      if t = l.size then pure (l.weight, p)
      else do
        let w ← shrink trans t sizes.reverse l.weight
        pure (w, p)

/-- `torch.eye(n)`: the value a transformation matrix is registered with (lines 354-366). -/
def eye {R : Type} [Semiring R] (n : Nat) : List (List R) :=
  (List.range n).map fun i => (List.range n).map fun j => if i = j then 1 else 0

/-- An entry of a kernel. -/
def at' {R : Type} [Zero R] (w : List (List R)) (u v : Nat) : R := (w.getD u []).getD v 0

/-- One value of `F.conv2d` for one kernel of `k` by `k` (PyTorch), the input being
extended by zeros. -/
def conv2 {R : Type} [Semiring R] (w : List (List R)) (k pad stride dil : Nat) (x : Int → Int → R) (i j : Nat) : R :=
  ∑ u ∈ Finset.range k, ∑ v ∈ Finset.range k,
    at' w u v * x ((i * stride + u * dil : Nat) - pad) ((j * stride + v * dil : Nat) - pad)

/-- Output size of a convolution (PyTorch), `total` being the sum of the padding on both
sides. -/
def outSize (h k total stride dil : Nat) : Int :=
  Int.fdiv ((h : Int) + total - dil * ((k : Int) - 1) - 1) stride + 1

/-- `DynamicConv2dAdaptivePadding.forward`, dynamic_conv.py lines 235-252: the padding
before and after one dimension. -/
def adaptivePad (h k stride dil : Nat) : Nat × Nat :=
  let o : Nat := (h + stride - 1) / stride
  let pad := (max (((o : Int) - 1) * stride + ((k : Int) - 1) * dil + 1 - h) 0).toNat
  (pad / 2, pad - pad / 2)

/-- The output size of `DynamicConv2dAdaptivePadding`, which then also applies its own
padding. -/
def adaptiveOut (h k own stride dil : Nat) : Int :=
  outSize h k ((adaptivePad h k stride dil).1 + (adaptivePad h k stride dil).2 + 2 * own) stride dil

end Verif.Kernel
