import Verif.Model.Gather

/-! Definitions used in the statements of `Verif/Props/Gather.lean`. -/

namespace Verif.Gather
open Verif LogitLoss

variable {W n N C : ℕ}

/-- `g r i` are the partial derivatives of `L` at `x`. -/
def Grad (L : (Fin W → Fin n → ℝ) → ℝ) (x : Fin W → Fin n → ℝ) (g : Fin W → Fin n → ℝ) : Prop :=
  ∃ D : (Fin W → Fin n → ℝ) →L[ℝ] ℝ, HasFDerivAt L D x ∧
    ∀ r i, g r i = D (Pi.single r (Pi.single i 1))

end Verif.Gather
