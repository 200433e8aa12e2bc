import Verif.Model.L1Norm

/-! The importance of channels for L1 pruning. -/

namespace Verif.L1Norm
open Verif ChannelUnit SeqChannel

/-- The weights that count, each with the row of the first channel of the unit. -/
def weights (outs : List Out) : List (List (List ℚ) × ℕ) := outs.filterMap fun o => o.weight.map fun w => (w, o.start)

/-- The mean of the absolute values of some numbers. -/
def meanAbs (l : List ℚ) : ℚ := (l.map fun w => |w|).sum / l.length

/-- The importance of a channel of the unit: its mean absolute weight in each layer, on average. -/
def score (outs : List Out) (i : ℕ) : ℚ :=
  ((weights outs).map fun p => meanAbs (p.1.getD (p.2 + i) [])).sum / (weights outs).length

/-- The convolutions and linear layers have a slice of `n` output channels in the unit. -/
def Fits (n : ℕ) (outs : List Out) : Prop :=
  ∀ o ∈ outs, ∀ rows, o.weight = some rows → o.stop = o.start + n ∧ o.stop ≤ rows.length

/-- A mask that keeps `k` of `n` channels, none of them less important than a dropped one. -/
structure Best (n k : ℕ) (s : ℕ → ℚ) (mask : List Bool) : Prop where
  length : mask.length = n
  count : mask.count true = k
  best : ∀ (i j : ℕ), mask[i]? = some true → mask[j]? = some false → s j ≤ s i

/-- The layers with all weights multiplied by a number. -/
def scaled (c : ℚ) (outs : List Out) : List Out :=
  outs.map fun o => { o with weight := o.weight.map fun w => w.map fun row => row.map fun x => c * x }

/-- Two convolutions and a normalisation layer that produce the four channels of a unit; the second
convolution produces another channel in front. -/
def exOuts : List Out :=
  [⟨some [[1, -1], [2, 2], [-5, 1], [0, 0]], 0, 4⟩, ⟨none, 0, 4⟩,
   ⟨some [[9, 9, 9], [1, 1, 1], [2, 2, -2], [-1, 0, 1], [6, -6, 6]], 1, 5⟩]

end Verif.L1Norm
