import Verif.Model.ItePrune
import Mathlib.Tactic

/-! Definitions used in the statements of `Verif/Props/ItePrune.lean`. -/

namespace Verif.ItePrune
open Verif

/-- A start value and a target of the same kind, not negative. -/
def Same : Num → Num → Prop
  | .int a, .int b => 0 ≤ a ∧ 0 ≤ b
  | .float a, .float b => 0 ≤ a ∧ 0 ≤ b
  | _, _ => False

/-- The number of prunings done before iteration `it`. -/
def done (freq times it : Nat) : Nat := min times ((it + freq - 1) / freq)

/-- The planned value of a unit at a given number of prunings: its start value before the
first. -/
def planned (rnd : ℚ → ℚ) (m : Manager) (k : Nat) (e : String × Num) : String × Num :=
  if k = 0 then e else
    match m.target.find? (·.1 = e.1) with
    | some t => (e.1, m.value rnd k t.2 e.2)
    | none => e

end Verif.ItePrune
