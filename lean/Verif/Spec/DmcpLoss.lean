import Verif.Model.DmcpLoss
import Mathlib.Tactic.Linarith
import Mathlib.Tactic.NormNum
import Mathlib.Tactic.Positivity

/-! Definitions used in the statements of `Verif/Props/DmcpLoss.lean`. -/

/-! C50: the FLOPs loss of DMCP. -/
namespace Verif.DmcpLoss

/-- The band of the documentation, in FLOPs: from 95 percent of the target up
to the target (which is given in MFLOPs). -/
def Band (target expected : ℝ) : Prop :=
  target * 1000000 * (95 / 100) ≤ expected ∧ expected < target * 1000000

end Verif.DmcpLoss
