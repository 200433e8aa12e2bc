import Verif.Model.SubModel
import Mathlib.Tactic.Common
import Mathlib.Data.List.Nodup
import Mathlib.Tactic.Ring
import Mathlib.Tactic.Linarith

/-! Definitions used in the statements of `Verif/Props/SubModel.lean`. -/

namespace Verif.SubModel
open Verif

/-- The units of an architecture: named after different layers, with some channels in use
and none missing; a unit that may not be pruned is complete. -/
structure WF (us : List Chan) : Prop where
  names : (us.map (·.layer)).Nodup
  some : ∀ u ∈ us, 0 < u.kept ∧ u.kept ≤ u.num
  fixed : ∀ u ∈ us, u.prunable = false → u.kept = u.num

/-- The same architecture, unpruned. -/
def unpruned (us : List Chan) : List Chan := us.map fun u => { u with kept := u.num }

/-- `m` is the smallest multiple of `d` that is at least `n`. -/
def SmallestMultiple (d n m : Nat) : Prop := d ∣ m ∧ n ≤ m ∧ ∀ k, d ∣ k → n ≤ k → m ≤ k

/-- A pruned network. -/
def demo : List Chan := [⟨"conv1", 64, 30, true⟩, ⟨"conv2", 128, 64, true⟩, ⟨"fc", 10, 10, false⟩]

end Verif.SubModel
