import Verif.Model.Deploy
import Verif.Spec.OnnxExport
import Mathlib.Tactic.Linarith
import Mathlib.Tactic.FieldSimp
import Mathlib.Tactic.Ring
import Mathlib.Tactic.Positivity
import Mathlib.Data.Nat.Prime.Defs
import Mathlib.Data.Int.NatPrime

/-! Definitions used in the statements of `Verif/Props/Deploy.lean`. -/

namespace Verif.Deploy
open Verif GptqQuantizer

/-- The factor with which batch normalisation multiplies the weights of a channel. -/
def Layer.factor (l : Layer) (ch : Channel) : ℚ := if l.bn then ch.gamma * ch.rstd else 1

/-- The weights of a channel with the batch normalisation. -/
def Layer.folded (l : Layer) (ch : Channel) : List ℚ := ch.w.map (· * l.factor ch)

/-- The weights that have one scale with those of a channel. -/
def Layer.group (c : Cfg) (l : Layer) (ch : Channel) : List ℚ :=
  if c.perChannel then l.folded ch else l.channels.flatMap l.folded

/-- The scale and zero point of the `i`-th channel. -/
def param (c : Cfg) (qs : List (ℚ × ℤ)) (i : ℕ) : ℚ × ℤ := qs.getD (if c.perChannel then i else 0) (1, 0)

/-- The weights with which the layer computes. -/
def Layer.weights (c : Cfg) (l : Layer) (i : ℕ) (ch : Channel) : List ℚ := match l.quant with
  | none => l.folded ch
  | some qs => (l.folded ch).map (Onnx.fakeRef (param c qs i).1 (param c qs i).2 c.lo c.hi)

/-- The sum of products. -/
def dot (w x : List ℚ) : ℚ := (List.zipWith (· * ·) w x).sum

/-- The activation function. -/
def Layer.act (l : Layer) (y : ℚ) : ℚ := if l.relu then max y 0 else y

/-- What a channel computes in evaluation mode from the inputs its weights meet. With batch normalisation torch
divides the sums of products by the factor and normalises them, which fails for a factor of zero. -/
def Layer.channel (c : Cfg) (l : Layer) (i : ℕ) (ch : Channel) (x : List ℚ) : Option ℚ :=
  if l.bn then
    if l.factor ch = 0 then none
    else some (l.act ((dot (l.weights c i ch) x / l.factor ch + ch.bias - ch.mean) * ch.rstd * ch.gamma + ch.beta))
  else some (l.act (dot (l.weights c i ch) x + ch.bias))

/-- What a layer computes. -/
def Layer.eval (c : Cfg) (l : Layer) (x : List ℚ) : List (Option ℚ) :=
  l.channels.zipIdx.map fun p => l.channel c p.2 p.1 x

/-- Signed symmetric quantisation of at least two bits without the lowest integer, as the backends ask for. -/
structure Cfg.Narrow (c : Cfg) : Prop where
  symmetric : c.symmetric = true
  signed : c.scheme.signed = true
  narrow : c.scheme.symRange = true
  bits : 2 ≤ c.scheme.bit
  eps : 0 < c.eps

/-- A scale that uses the range: it is the least one, or some weight takes the largest integer, or all become zero. -/
def Cfg.Fits (c : Cfg) (ws : List ℚ) (s : ℚ) : Prop :=
  c.eps ≤ s ∧ (s = c.eps ∨ (∃ w ∈ ws, ((c.hi : ℚ) - 1 / 2) * s < |w|) ∨ ∀ w ∈ ws, |w| ≤ s / 2)

/-- Unsigned integers of eight bits with any zero point. -/
def affine (perChannel : Bool) (eps : ℚ) : Cfg := ⟨⟨false, 8, false⟩, false, perChannel, eps⟩

mutual
/-- The layers of a tree with their paths. -/
def Mod.layers : Mod → List (List String × Layer)
  | .layer l => [([], l)]
  | .parent _ cs => layersIn cs
/-- The layers below several children. -/
def layersIn : List (String × Mod) → List (List String × Layer)
  | [] => []
  | (n, m) :: cs => m.layers.map (fun p => (n :: p.1, p.2)) ++ layersIn cs
end

mutual
/-- The tree without what is in the layers. -/
def Mod.shape : Mod → Mod
  | .layer _ => .layer ⟨false, false, [], none⟩
  | .parent k cs => .parent k (shapeIn cs)
/-- The same for several children. -/
def shapeIn : List (String × Mod) → List (String × Mod)
  | [] => []
  | (n, m) :: cs => (n, m.shape) :: shapeIn cs
end

/-- The fake quantiser that torch prescribes for the outputs of sigmoid functions. -/
def sigmoidQuant : ActQuant := ⟨1 / 256, 0, 0, 255⟩

/-- Eight bits by channels, as in the configurations of the repository. -/
def narrow8 (p : Bool) : Cfg := ⟨⟨true, 8, true⟩, true, p, 1 / 8388608⟩

/-- Two channels with batch normalisation. -/
def twoRows : Layer := ⟨true, true, [⟨[254, -100], 1, 1 / 2, 3, 1, 1⟩, ⟨[3, 127 / 2], 0, 2, 0, 0, 1⟩], some [(1, 0), (1, 0)]⟩

end Verif.Deploy
