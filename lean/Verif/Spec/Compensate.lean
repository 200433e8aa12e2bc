import Mathlib.Data.Rat.Defs
import Mathlib.Algebra.BigOperators.Group.Finset.Basic
import Mathlib.Algebra.Field.Rat

/-! The squared error of a linear layer's outputs, as used by the weight compensation of GPTQ and
SparseGPT: specification. -/

namespace Verif.Compensate
open Finset

/-- The change in a row's output, summed over all recorded inputs, when its weights change by `d`: the
quadratic form of the matrix `h` of the inputs. -/
def quadErr (n : Nat) (h : Nat → Nat → ℚ) (d : Nat → ℚ) : ℚ := ∑ a ∈ range n, ∑ b ∈ range n, d a * h a b * d b

/-- `u` is an upper triangular factor of the inverse of `h`: the inverse is `uᵀ u`. -/
def IsFactor (n : Nat) (h u : Nat → Nat → ℚ) : Prop :=
  (∀ i < n, ∀ j < i, u i j = 0) ∧ (∀ i < n, u i i ≠ 0) ∧
  ∀ i < n, ∀ j < n, ∑ a ∈ range n, h i a * ∑ b ∈ range n, u b a * u b j = if i = j then 1 else 0

end Verif.Compensate
