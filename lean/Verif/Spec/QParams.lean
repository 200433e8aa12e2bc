import Verif.Model.QParams
import Mathlib.Tactic

/-! Definitions used in the statements of `Verif/Props/QParams.lean`. -/

namespace Verif.QParams
open Verif

/-- What the operations keep. -/
def Inv (q : Lsq) : Prop :=
  0 < q.eps ∧ q.lo ≤ q.hi ∧ (q.zpTrain = false → (∃ z : Int, q.zp = z ∧ q.lo ≤ z ∧ z ≤ q.hi))

/-- The observer of torch returns zero points in the range. -/
def Legal (q : Lsq) : Op → Prop
  | .forward n z => 0 ≤ n ∧ q.lo ≤ z ∧ z ≤ q.hi
  | _ => True

end Verif.QParams
