import Verif.Model.WideNet
import Mathlib.Tactic.Ring

/-! Definitions used in the statements of `Verif/Props/WideNet.lean`. -/

namespace Verif.WideNet
open Verif

/-- The side length after a layer with a stride. -/
def ceilDiv (h s : ℕ) : ℕ := (h + s - 1) / s

/-- The arguments are usable: the depth is supported with `n` blocks per stage and width `x`,
every used stage has a positive stride and dilation, and there is at least one stage. -/
structure Usable (c : Cfg) (n x : ℕ) : Prop where
  depth : (c.depth, n) ∈ [(10, 1), (16, 2), (22, 3), (28, 4), (40, 6)]
  width : c.expansion = some (x : ℤ) ∧ 0 < x ∨ c.expansion = none ∧ x = c.widen
  stages : 0 < c.numStages
  strides : min c.numStages 3 ≤ c.strides.length
  dilations : min c.numStages 3 ≤ c.dilations.length
  stride_pos : ∀ s ∈ c.strides, 0 < s
  dil_pos : ∀ d ∈ c.dilations, 0 < d

end Verif.WideNet
