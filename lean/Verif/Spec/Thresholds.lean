import Verif.Model.Thresholds
import Mathlib.Tactic

/-! Definitions used in the statements of `Verif/Props/Thresholds.lean`. -/

namespace Verif.Thresholds
open Verif

/-- The list is from big to small. -/
def Down (l : List ℚ) : Prop := l.Pairwise (· ≥ ·)

/-- The number of checks in iterations `it`, `it + 1`, … with resources below `t`. -/
def checksBelow (c : Cfg) (t : ℚ) (it : Nat) (ps : List ℚ) : Nat :=
  ((ps.zipIdx it).filter fun e => decide (e.2 % c.interval = 0 ∧ e.1 < t)).length

end Verif.Thresholds
