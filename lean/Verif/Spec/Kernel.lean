import Verif.Model.Kernel
import Verif.Lemmas.DynamicOps
import Mathlib.Tactic
import Mathlib.Algebra.BigOperators.Intervals

/-! Definitions used in the statements of `Verif/Props/Kernel.lean`. -/

namespace Verif.Kernel
open Verif DynamicOps

variable {R : Type}

/-- A kernel of `s` by `s`. -/
def Square (s : Nat) (w : List (List R)) : Prop := w.length = s ∧ ∀ r ∈ w, r.length = s

/-- The kernel with every entry outside the centred `t` by `t` entries set to zero. -/
def centreOnly [Zero R] (s t : Nat) (w : List (List R)) : List (List R) :=
  w.mapIdx fun u r => r.mapIdx fun v e =>
    if (s - t) / 2 ≤ u ∧ u < (s - t) / 2 + t ∧ (s - t) / 2 ≤ v ∧ v < (s - t) / 2 + t then e else 0

/-- A kernel of five by five, searched over 1, 3 and 5. -/
def k5 : Layer Int := ⟨5, 2, [[1, 2, 3, 4, 5], [6, 7, 8, 9, 10], [11, 12, 13, 14, 15], [16, 17, 18, 19, 20], [21, 22, 23, 24, 25]],
  some [1, 3, 5], some 3⟩

end Verif.Kernel
