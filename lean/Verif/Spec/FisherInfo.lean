import Verif.Model.FisherInfo
import Mathlib.Analysis.Calculus.Deriv.Mul
import Mathlib.Analysis.Calculus.Deriv.Comp
import Mathlib.Analysis.Calculus.Deriv.Prod
import Mathlib.Data.List.GetD
import Mathlib.Tactic

/-! Definitions used in the statements of `Verif/Props/FisherInfo.lean`. -/

namespace Verif.FisherInfo
open Verif

/-! ### Specification -/

/-- A layer is called with the inputs `xs` and the gradients `gs` come back in the opposite order, as
backpropagation produces them. -/
def round {I G : Type} (r : Rec I G) (xs : List I) (gs : List G) : Rec I G :=
  gs.reverse.foldl Rec.backward (xs.foldl Rec.forward r)

/-- The number of unpruned channels. -/
def active (mask : List Bool) : ℕ := mask.count true

/-- The position of a channel among the unpruned ones. -/
def rank (mask : List Bool) (c : ℕ) : ℕ := (mask.take c).count true

/-- The positions of the inputs of all calls. -/
abbrev Idx {B w : ℕ} (calls : List (Call B w)) : Type := (k : Fin calls.length) × (Fin w × Fin (calls.get k).P)

/-- The inputs of a sample. -/
def inputAt {B w : ℕ} (calls : List (Call B w)) (b : Fin B) (i : Idx calls) : ℝ := (calls.get i.1).input b i.2.1 i.2.2

/-- The gradients of a sample. -/
def gradAt {B w : ℕ} (calls : List (Call B w)) (b : Fin B) (i : Idx calls) : ℝ := (calls.get i.1).grad b i.2.1 i.2.2

/-- The inputs with channel `c` multiplied by a gate. -/
def gated {B w : ℕ} (calls : List (Call B w)) (b : Fin B) (c : Fin w) (m : ℝ) (i : Idx calls) : ℝ :=
  if i.2.1 = c then m * inputAt calls b i else inputAt calls b i

/-- `L` is the loss of a sample as a function of the inputs, with the recorded gradients. -/
def IsLoss {B w : ℕ} (calls : List (Call B w)) (b : Fin B) (L : (Idx calls → ℝ) → ℝ) : Prop :=
  HasFDerivAt L (∑ i, gradAt calls b i • (ContinuousLinearMap.proj i : (Idx calls → ℝ) →L[ℝ] ℝ)) (inputAt calls b)

/-- The multiplications of a layer with `i` input and `o` output channels over all recorded calls. -/
def Op.flops (op : Op) (i o : ℕ) : ℕ :=
  match op.kind with
  | .linear => op.shapes.length * (i * o)
  | .conv kk groups _ _ => (op.shapes.map fun s => s.2.1 * s.2.2 * kk * (if groups = 1 then i * o else o)).sum

/-- The numbers a layer puts out per sample with `n` output channels, over all recorded calls. -/
def Op.outputs (op : Op) (n : ℕ) : ℕ :=
  match op.kind with
  | .linear => op.shapes.length * n
  | .conv _ _ _ _ => (op.shapes.map fun s => n * (s.2.1 * s.2.2)).sum

/-- An ordinary convolution or a linear layer. -/
def Op.Plain (op : Op) : Prop := ∀ kk groups inC outC, op.kind = .conv kk groups inC outC → groups = 1

/-- A depthwise convolution. -/
def Op.Depthwise (op : Op) : Prop := ∃ kk n, op.kind = .conv kk n n n ∧ n ≠ 1

/-- The multiplications of the layers of a unit as a function of its channels, for layers that write it
and layers that read it. -/
def unitFlops (outs ins : List Op) (n : ℕ) : ℕ := (outs.map fun o => o.flops o.inAct n).sum + (ins.map fun o => o.flops n o.outAct).sum

end Verif.FisherInfo
