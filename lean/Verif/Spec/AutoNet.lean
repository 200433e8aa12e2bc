import Verif.Model.AutoNet
import Mathlib.Algebra.Order.Floor.Semiring

/-! Definitions used in the statements of `Verif/Props/AutoNet.lean`. -/

namespace Verif.AutoNet
open Verif

/-- A subnet: the width of the embedding, the heads and the ratio of each layer, the depth. -/
structure Sub where
  embed : ℕ
  head : ℕ → ℕ
  ratio : ℕ → ℚ
  depth : ℕ

/-- The subnet after one more choice. -/
def Sub.pick (c : Sub) : Pick → Sub
  | .embed e => { c with embed := e }
  | .head i h => { c with head := Function.update c.head i h }
  | .ratio i r => { c with ratio := Function.update c.ratio i r }
  | .depth d => { c with depth := d }

/-- The choices the setting offers, for the layers there are. -/
def Allowed (s : Setting) (layers : ℕ) : Pick → Prop
  | .embed e => e ∈ s.embeds
  | .head i h => i < layers ∧ h ∈ s.heads
  | .ratio i r => i < layers ∧ r ∈ s.ratios
  | .depth d => d ∈ s.depths

/-- The first `k` of `n`. -/
def firsts (n k : ℕ) : List Bool := List.replicate k true ++ List.replicate (n - k) false

/-- What a layer of width `e` with `h` heads and ratio `r` has to use of a layer of width `E` with ratio `R`: the first channels
everywhere, 64 features for each head, and as many hidden features as width times ratio, rounded down. -/
def layerShape (E : ℕ) (R : ℚ) (e h : ℕ) (r : ℚ) : LayerShape where
  norm1 := firsts E e
  attn := ⟨h, 64, e, 64 * h, e⟩
  norm2 := firsts E e
  fc1 := (firsts E e, firsts ⌊(E : ℚ) * R⌋₊ ⌊(e : ℚ) * r⌋₊)
  fc2 := (firsts ⌊(E : ℚ) * R⌋₊ ⌊(e : ℚ) * r⌋₊, firsts E e)

/-- What the subnet has to use of the whole network. -/
def netShape (E : ℕ) (R : ℚ) (finalNorm : Bool) (c : Sub) : NetShape where
  patch := firsts E c.embed
  token := c.embed
  layers := (List.range c.depth).map fun (i : ℕ) => layerShape E R c.embed (c.head i) (c.ratio i)
  norm := if finalNorm then some (firsts E c.embed) else none
  output := c.embed

/-- The numbers of a layer. -/
structure Sizes where
  norm1 : ℕ
  attn : AttnShape
  norm2 : ℕ
  fc1 : ℕ × ℕ
  fc2 : ℕ × ℕ
deriving DecidableEq, Repr

/-- The sizes of the parameters in use of a layer. -/
def LayerShape.sizes (l : LayerShape) : Sizes :=
  ⟨l.norm1.count true, l.attn, l.norm2.count true, (l.fc1.1.count true, l.fc1.2.count true), (l.fc2.1.count true, l.fc2.2.count true)⟩

/-- The sizes of the parameters in use of the network. -/
def NetShape.sizes (n : NetShape) : ℕ × ℕ × List Sizes × Option ℕ × ℕ :=
  (n.patch.count true, n.token, n.layers.map LayerShape.sizes, n.norm.map (·.count true), n.output)

/-- The last entries `E`, `hl`, `rl` and `D` of the lists, the largest numbers of heads and ratio `H` and `R`, and the largest depth,
which is listed last. Widths, heads and hidden layers are not empty. -/
structure Listed (s : Setting) (E hl H : ℕ) (rl R : ℚ) (D : ℕ) : Prop where
  embed : s.embeds.getLast? = some E
  head : s.heads.getLast? = some hl
  headMax : H ∈ s.heads ∧ ∀ h ∈ s.heads, h ≤ H
  ratio : s.ratios.getLast? = some rl
  ratioMax : R ∈ s.ratios ∧ ∀ r ∈ s.ratios, r ≤ R
  depth : s.depths.getLast? = some D
  depthMax : ∀ d ∈ s.depths, d ≤ D
  embedPos : 0 < E
  headPos : ∀ h ∈ s.heads, 0 < h
  ratioPos : ∀ r ∈ s.ratios, 0 ≤ r
  midPos : 1 ≤ (E : ℚ) * rl

/-- A small search space. -/
def exSetting : Setting := ⟨[5, 8], [1, 2], [1, 5 / 2], [1, 2]⟩

/-- The same with other orders. -/
def exWidths : Setting := ⟨[8, 5], [1, 2], [1, 5 / 2], [1, 2]⟩
def exHeads : Setting := ⟨[5, 8], [2, 1], [1, 5 / 2], [1, 2]⟩
def exRatios : Setting := ⟨[5, 8], [1, 2], [5 / 2, 1], [1, 2]⟩

end Verif.AutoNet
