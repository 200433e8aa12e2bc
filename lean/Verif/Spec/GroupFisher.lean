import Verif.Model.GroupFisher
import Mathlib.Tactic

/-! Definitions used in the statements of `Verif/Props/GroupFisher.lean`. -/

namespace Verif.GroupFisher
open Verif

/-- As many fisher numbers as channels. -/
def Fit (u : FUnit) : Prop := u.fisher.length = u.mask.length

/-- Channel `j` of unit `i` is active, its unit has another active channel, and its
importance is `q`. -/
def Prunable (us : List FUnit) (i j : Nat) (q : ℚ) : Prop :=
  ∃ u, us[i]? = some u ∧ 1 < u.active ∧ u.mask[j]? = some true ∧ u.fisher[j]? = some (some q)

/-- No NaN in the information of the units that may be pruned. -/
def Clean (us : List FUnit) : Prop := ∀ u ∈ us, 1 < u.active → none ∉ u.fisher

/-- Deactivate channel `j` of unit `i`. -/
def drop (us : List FUnit) (i j : Nat) : List FUnit := us.modify i fun u => { u with mask := u.mask.set j false }

/-- `v` is `u` with possibly fewer active channels, but not none if `u` had one. -/
def Kept (u v : FUnit) : Prop :=
  v.mask.length = u.mask.length ∧ (∀ j : Nat, v.mask[j]? = some true → u.mask[j]? = some true) ∧ (0 < u.active → 0 < v.active)

/-- The total number of active channels. -/
def total (us : List FUnit) : Nat := (us.map FUnit.active).sum

/-- The contribution of a batch fits the units. -/
def FitBatch (us : List FUnit) (b : List (List (Option ℚ))) : Prop := List.Forall₂ (fun u x => x.length = u.mask.length) us b

/-- The number of channels that can still be pruned: each unit keeps one. -/
def excess (us : List FUnit) : Nat := (us.map fun u => u.active - 1).sum

/-- No NaN in any information, and no number above `c`. -/
def Bounded (us : List FUnit) (c : ℚ) : Prop := ∀ u ∈ us, ∀ x ∈ u.fisher, ∃ q, x = some q ∧ q ≤ c

end Verif.GroupFisher
