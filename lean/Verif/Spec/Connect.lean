import Verif.Model.Connect
import Mathlib.MeasureTheory.Measure.Lebesgue.Basic
import Mathlib.Algebra.BigOperators.Field
import Mathlib.Tactic.Linarith
import Mathlib.Tactic.FieldSimp

/-! Definitions used in the statements of `Verif/Props/Connect.lean`. -/

namespace Verif.Connect
open Verif

/-- Weights with mean one, whose ratios are the exponentials of the differences of scores divided
by a temperature. -/
def MeanOneWeights {n : ℕ} (score : Fin n → ℝ) (T : ℝ) (w : Fin n → ℝ) : Prop :=
  (∀ i, 0 < w i) ∧ ∑ i, w i = n ∧ ∀ i j, w i / w j = Real.exp ((score i - score j) / T)

/-- All tuples of indices of axes with the given sizes. -/
def indices : List ℕ → List (List ℕ)
  | [] => [[]]
  | d :: ds => (List.range d).flatMap (fun j => (indices ds).map (fun i => j :: i))

/-- The connector of the unit test. -/
def exByot : Byot := { inC := 16, outC := 32, classes := 100, stride := 2 }

end Verif.Connect
