import Verif.Model.LogitLoss
import Mathlib.Tactic.Linarith
import Mathlib.Tactic.Positivity
import Mathlib.Tactic.FieldSimp
import Mathlib.Tactic.Ring
import Mathlib.Tactic.LinearCombination
import Mathlib.Tactic.NormNum

/-! Definitions used in the statements of `Verif/Props/LogitLoss.lean`. -/

namespace Verif.LogitLoss
open Verif

/-! ### Specification -/

/-- `p` is the probability vector of the scores `z`: positive, summing to one, with the ratio of two
classes given by the difference of their scores. -/
def Probs {C : ℕ} (z p : Fin C → ℝ) : Prop :=
  (∀ i, 0 < p i) ∧ ∑ i, p i = 1 ∧ ∀ i j, p i = p j * Real.exp (z i - z j)

/-- The Kullback-Leibler divergence of `q` from `p`. -/
noncomputable def kl {C : ℕ} (p q : Fin C → ℝ) : ℝ := ∑ i, p i * Real.log (p i / q i)

/-- The entropy of `p`. -/
noncomputable def entropy {C : ℕ} (p : Fin C → ℝ) : ℝ := -∑ i, p i * Real.log (p i)

/-- The divergence between two coins. -/
noncomputable def kl2 (a b : ℝ) : ℝ := a * Real.log (a / b) + (1 - a) * Real.log ((1 - a) / (1 - b))

/-- The divergence between `p` and `q` restricted to the classes other than `l`. -/
noncomputable def klOthers {C : ℕ} (l : Fin C) (p q : Fin C → ℝ) : ℝ :=
  ∑ i ∈ Finset.univ.erase l, p i / (1 - p l) * Real.log ((p i / (1 - p l)) / (q i / (1 - q l)))

/-- Two score vectors give the same probabilities: they differ by a constant. -/
def Same {C : ℕ} (s t : Fin C → ℝ) : Prop := ∃ a, ∀ i, s i = t i + a

/-- A tensor with one element replaced. -/
def put {N C P : ℕ} (s : Tensor N C P) (n : Fin N) (c : Fin C) (i : Fin P) (x : ℝ) : Tensor N C P :=
  fun n' c' i' => if n' = n ∧ c' = c ∧ i' = i then x else s n' c' i'

/-- The weight of the student's own difficulty against the teacher's in `WSLD`. -/
noncomputable def sampleWeight (a b : ℝ) : ℝ := 1 - Real.exp (-(a / (b + 1 / 10 ^ 7)))

/-- The scores with the label's score lowered by a thousand. -/
noncomputable def lowered {C : ℕ} (τ : ℝ) (z : Fin C → ℝ) (l : Fin C) : Fin C → ℝ :=
  fun j => z j / τ - if j = l then 1000 else 0

end Verif.LogitLoss
