import Verif.Model.Mutator
import Mathlib.Tactic

/-! Definitions used in the statements of `Verif/Props/Mutator.lean`. -/

namespace Verif.Mutator
open Verif

variable {N C : Type} [DecidableEq N]

/-- A choice an element accepts and reads back unchanged. -/
def Legal (store : Nat → C → Except Err C) (e : Nat) (c : C) : Prop := store e c = .ok c

/-- Group names are distinct, no group is empty, and no element is in two groups. -/
structure Wf (groups : List (N × List Nat)) : Prop where
  names : (groups.map (·.1)).Nodup
  nonempty : ∀ g ∈ groups, g.2 ≠ []
  disjoint : groups.Pairwise (fun g g' => ∀ e ∈ g.2, e ∉ g'.2)

/-- The dictionary gives every group a choice legal for each of its elements. -/
def Complete (store : Nat → C → Except Err C) (groups : List (N × List Nat)) (choices : N → C) : Prop :=
  ∀ g ∈ groups, ∀ e ∈ g.2, Legal store e (choices g.1)

/-- What element `e` offers for a kind of sampling. -/
def pick (o : Offers C) (kind : Kind) (e : Nat) : C :=
  match kind with
  | .max => o.max e
  | .min => o.min e
  | _ => o.random e

/-- The entry sampled for a group: what its first element offers, by its architecture
parameter if the group has one. -/
def Sampled (o : Offers C) (arch : N → Bool) (kind : Kind) (g : N × List Nat) (p : N × C) : Prop :=
  p.1 = g.1 ∧ ∃ e, g.2.head? = some e ∧ p.2 = if arch g.1 then o.byParam e else pick o kind e

end Verif.Mutator
