import Verif.Model.FeatureLoss
import Mathlib.Tactic.Linarith
import Mathlib.Tactic.Positivity
import Mathlib.Tactic.FieldSimp
import Mathlib.Tactic.Ring
import Mathlib.Tactic.LinearCombination
import Mathlib.Tactic.NormNum
import Mathlib.Algebra.BigOperators.Fin
import Mathlib.Algebra.BigOperators.Field
import Mathlib.Algebra.Order.BigOperators.Ring.Finset

/-! Definitions used in the statements of `Verif/Props/FeatureLoss.lean`. -/

namespace Verif.FeatureLoss
open Verif

/-! ### Specification -/

/-- The squared distance of two features. -/
def sqDist {N D : ℕ} (s t : Feat N D) : ℝ := ∑ n, ∑ d, (s n d - t n d) ^ 2

/-- Two rows point in the same direction. -/
def Aligned {D : ℕ} (x y : Fin D → ℝ) : Prop := ∃ a, 0 < a ∧ ∀ d, x d = a * y d

/-- The attention map of a sample: the sum of the squared activations at every position. -/
def energy {C P : ℕ} (x : Fin C → Fin P → ℝ) (p : Fin P) : ℝ := ∑ c, x c p ^ 2

end Verif.FeatureLoss
