import Verif.Model.DsnasArch
import Mathlib.Tactic

/-! Definitions used in the statements of `Verif/Props/DsnasArch.lean`. -/

namespace Verif.DsnasArch
open Verif

variable {ι : Type} [Fintype ι] [DecidableEq ι] {C : ι → Type} [∀ m, Fintype (C m)] [∀ m, DecidableEq (C m)]

/-- Gradient descent. -/
def descent (lr : ℝ) (_ : Unit) (a g : (m : ι) → C m → ℝ) : Unit × ((m : ι) → C m → ℝ) := ((), fun m j => a m j - lr * g m j)

end Verif.DsnasArch
