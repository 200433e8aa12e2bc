import Verif.Model.Observers

/-! Definitions used in the statements of `Verif/Props/Observers.lean`. -/

namespace Verif.Observers
open Verif Deploy

/-- `m` is the smallest and `M` the largest of some values. -/
structure Extremes (vs : List ℚ) (m M : ℚ) : Prop where
  least : m ∈ vs ∧ ∀ v ∈ vs, m ≤ v
  largest : M ∈ vs ∧ ∀ v ∈ vs, v ≤ M

/-- A usable quantisation: at least two levels (at least two bits for a signed symmetric range) and a positive least scale. -/
structure Usable (c : Cfg) : Prop where
  bits : 1 ≤ c.scheme.bit
  levels : c.lo < c.hi
  eps : 0 < c.eps

/-- Eight bits unsigned, affine. -/
def exAffine : Cfg := ⟨⟨false, 8, false⟩, false, false, 1 / 1000000⟩

/-- Eight bits signed, symmetric. -/
def exSymmetric : Cfg := ⟨⟨true, 8, true⟩, true, false, 1 / 1000000⟩

end Verif.Observers
