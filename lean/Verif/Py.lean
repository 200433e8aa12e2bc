/-
Shared vocabulary of the model: Python exceptions as values and the few Python
built-ins whose exact behaviour matters.
-/
import Mathlib.Data.Rat.Floor
import Mathlib.Algebra.Order.Field.Rat

namespace Verif

/-- The exception classes raised by the modelled code (Python built-ins). -/
inductive Err where
  | assertion
  | value
  | type
  | runtime
  | attribute
  | key
  | index
  | zeroDivision
  | notImplemented
  | name
  deriving DecidableEq, Repr

/-- Python `int(x)` on a real number: truncation towards zero.
Floats are modelled by exact rationals. -/
def pyInt (q : ℚ) : Int := if 0 ≤ q then ⌊q⌋ else ⌈q⌉

/-- Python `a // b` on integers: floor division; raises on `b = 0`. -/
def pyFloorDiv (a b : Int) : Except Err Int :=
  if b = 0 then .error .zeroDivision else .ok (Int.fdiv a b)

end Verif
