import Verif.Model.TransOps
import Mathlib.Tactic.Linarith
import Mathlib.Tactic.NormNum
import Mathlib.Data.Rat.Defs

/-! Definitions used in the statements of `Verif/Props/TransOps.lean`. -/

namespace Verif.TransOps
open Verif

/-- The elements at the active places, in order. -/
def activeOf {A : Type} : List Bool → List A → List A
  | true :: m, a :: l => a :: activeOf m l
  | false :: m, _ :: l => activeOf m l
  | _, _ => []

/-- The mask of a layer after some uses: the last chosen one. -/
def lastMask {X : Type} (m : List Bool) : List (Use X) → List Bool
  | [] => m
  | .choose m' :: r => lastMask m' r
  | .run _ _ :: r => lastMask m r

end Verif.TransOps
