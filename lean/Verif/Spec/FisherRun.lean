import Verif.Model.FisherRun
import Verif.Spec.GroupFisher
import Verif.Spec.Thresholds

/-! Definitions used in the statements of `Verif/Props/FisherRun.lean`. -/

namespace Verif.FisherRun
open Verif GroupFisher Thresholds

/-- Units that can be trained with the batches: there is one, each has an information for every channel, and the contributions of the
batches have as many numbers as there are channels. -/
structure Ready (us : List FUnit) (bs : List (List (List (Option ℚ)))) : Prop where
  some_unit : us ≠ []
  fit : ∀ u ∈ us, Fit u
  batches : ∀ b ∈ bs, FitBatch us b

/-- The units after `n` batches of training without any hook. -/
def UnitsAfter (interval : Nat) (bs : List (List (List (Option ℚ)))) (us : List FUnit) (n : Nat) (vs : List FUnit) : Prop :=
  GroupFisher.run interval 0 (bs.take n) us = .ok vs

/-- The batches contribute no NaN and at most `B` to a channel. -/
def AtMost (B : ℚ) (bs : List (List (List (Option ℚ)))) : Prop := ∀ b ∈ bs, ∀ r ∈ b, ∀ x ∈ r, ∃ q, x = some q ∧ q ≤ B

/-- A resource: the number of weights of a chain of layers with ten outputs at the end. -/
def chain : List Nat → ℚ
  | [] => 0
  | [w] => (w : ℚ) * 10
  | w :: v :: ws => (w : ℚ) * v + chain (v :: ws)

/-- Two units of three and two channels. -/
def exUnits2 : List FUnit := [⟨[true, true, true], [some 0, some 0, some 0]⟩, ⟨[true, true], [some 0, some 0]⟩]

/-- What every batch contributes. -/
def exBatch : List (List (Option ℚ)) := [[some 3, some 1, some 2], [some 4, some 5]]

end Verif.FisherRun
