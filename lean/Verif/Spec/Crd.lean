import Verif.Model.Crd
import Mathlib.Tactic

/-! Definitions used in the statements of `Verif/Props/Crd.lean`. -/

namespace Verif.Crd
open Verif

/-- What the library promises about its generator: permutations are permutations; a choice from
a nonempty array (or of nothing) has the wanted number of elements, from the array, and without
replacement no position twice. -/
def Legal (r : Rand) : Prop :=
  (∀ k l, (r.perm k l).Perm l) ∧
  ∀ l k rep, (l ≠ [] ∨ k = 0) → (r.choice l k rep).length = k ∧ (∀ x ∈ r.choice l k rep, x ∈ l) ∧
    (rep = false → k ≤ l.length → l.Nodup → (r.choice l k rep).Nodup)

end Verif.Crd
