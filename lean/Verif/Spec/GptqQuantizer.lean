import Verif.Model.GptqQuantizer
import Mathlib.Tactic

/-! Definitions used in the statements of `Verif/Props/GptqQuantizer.lean`. -/

namespace Verif.GptqQuantizer
open Verif

/-- The grid of a set of parameters: `scale * (k - zero)` for the codes `0 … maxq`. -/
def OnGrid (maxq : Int) (p : P) (y : ℚ) : Prop := ∃ k : Int, 0 ≤ k ∧ k ≤ maxq ∧ y = p.scale * (k - p.zero)

/-- Usable parameters: positive scale, integral zero point. -/
def Good (p : P) : Prop := 0 < p.scale ∧ ∃ z : Int, p.zero = z

end Verif.GptqQuantizer
