import Verif.Model.QatLoop
import Mathlib.Tactic

/-! Definitions used in the statements of `Verif/Props/QatLoop.lean`. -/

namespace Verif.QatLoop
open Verif

/-- The configured point has come: epochs are counted from 1 by the user and from 0 by the
loop; a setting that is not positive means never. -/
def due (b : Int) (epoch : Nat) : Bool := decide (1 ≤ b) && decide (b - 1 ≤ epoch)

/-- The switches that an event must show. -/
def Follows (c : Cfg) (frozen0 : Bool) : Ev → Prop
  | .train e _ f => f.fq = true ∧ f.obs = !due c.observerOff e ∧ f.frozen = (frozen0 || due c.bnOff e)
  | .save e f => f.fq = true ∧ f.obs = false ∧ f.frozen = (frozen0 || due c.bnOff e)
  | .val e _ f => f.fq = true ∧ f.obs = false ∧ f.frozen = (frozen0 || due c.bnOff e)

/-- The epoch of an event. -/
def Ev.epoch : Ev → Nat
  | .train e _ _ => e
  | .save e _ => e
  | .val e _ _ => e

end Verif.QatLoop
