import Verif.Model.Expand
import Verif.Lemmas.DynamicOps
import Mathlib.Tactic.Linarith

/-! Definitions used in the statements of `Verif/Props/Expand.lean`. -/

/-! C48: expanding the channels of a network. -/
namespace Verif.Expand
open Verif.DynamicOps (select chunks count select_map select_zipWith select_append select_true
  chunks_flatten count_true)

/-- Put the elements of `src` in order at the positions of the mask and `z`
elsewhere. -/
def place {α : Type} (z : α) : List Bool → List α → List α
  | true :: m, s :: src => s :: place z m src
  | true :: m, [] => z :: place z m []
  | false :: m, src => z :: place z m src
  | [], _ => []

variable {X : Type} [AddCommGroup X]

/-- A layer fits masks: as many rows as old outputs, as many columns as old
inputs. -/
def Layer.Fits (l : Layer) (mo mi : List Bool) : Prop :=
  l.w.length = count mo ∧ (∀ r ∈ l.w, r.length = count mi ∧ ∀ k ∈ r, k.length = l.c) ∧
    ∀ b, l.b = some b → b.length = count mo

/-- A depthwise layer fits a mask. -/
def DwLayer.Fits (l : DwLayer) (m : List Bool) : Prop :=
  l.w.length = count m ∧ (∀ k ∈ l.w, k.length = l.c) ∧ ∀ b, l.b = some b → b.length = count m

/-- A batch norm with affine parameters fits a mask. -/
def Norm.Fits (n : Norm) (m : List Bool) : Prop :=
  n.mean.length = count m ∧ n.var.length = count m ∧
    ∃ w b, n.affine = some (w, b) ∧ w.length = count m ∧ b.length = count m

/-- A network whose layers fit together, on `n` input channels.  The kernels of
zeros do nothing. -/
def Net.WF (n : Nat) : Net X → Prop
  | .input k => k = n
  | .conv act _ mo l e => e.WF n ∧ (∀ x, act (List.replicate l.c 0) x = 0) ∧ l.Fits mo e.mask
  | .dw _ _ l e => e.WF n ∧ l.Fits e.mask
  | .norm _ k e => e.WF n ∧ k.Fits e.mask
  | .chan _ e => e.WF n
  | .spread _ _ e => e.WF n
  | .add e e' => e.WF n ∧ e'.WF n ∧ e.mask = e'.mask
  | .cat e e' => e.WF n ∧ e'.WF n

/-- A network with a concatenation, a residual addition and a final layer that
is not expanded. -/
def demo : Net ℚ :=
  let act := fun (k : List ℚ) (x : ℚ) => k.sum * x
  let c1 := Net.conv act id [true, false] ⟨1, [[[2], [1]]], some [1]⟩ (.input 2)
  let r := Net.chan (fun x => max x 0) (.norm (fun w b m _ x => w * (x - m) + b)
    ⟨[1], [1], some ([2], [1])⟩ c1)
  .conv act id [true] ⟨1, [[[1], [3], [-1]]], none⟩ (.cat (.add r r) (.input 2))

end Verif.Expand
