import Verif.Model.Delivery
import Mathlib.Tactic

/-! Definitions used in the statements of `Verif/Props/Delivery.lean`. -/

namespace Verif.Delivery
open Verif

variable {V : Type}

/-- The values returned, in order, by the calls made while recording (`m = false`) or
overriding (`m = true`). -/
def returned (m : Bool) (outs : List (Bool × Outcome V)) : List V :=
  outs.filterMap fun o => if o.1 = m then (match o.2.result with | .ok v => some v | .error _ => none) else none

/-- What a delivery of a manager sees of the history. -/
def seen (i : Nat) (ops : List (MOp V)) : List (Op V) :=
  ops.filterMap fun o => match o with
    | .setOverride b => some (.setOverride b)
    | .call j v => if j = i then some (.call v) else none

end Verif.Delivery
