import Verif.Model.ChannelGraph
import Mathlib.Tactic

/-! Definitions used in the statements of `Verif/Props/ChannelGraph.lean`. -/

namespace Verif.ChannelGraph
open Verif

/-- The edge from `p` into a node with `n` input channels asks for an expansion: fewer
channels come out than go in, by a whole factor. -/
def Needs (n : Nat) (p : Pre) : Prop := p.out < n ∧ p.out ∣ n

instance (n : Nat) (p : Pre) : Decidable (Needs n p) := inferInstanceAs (Decidable (_ ∧ _))

/-- No two predecessors next to each other both ask for an expansion. -/
def Apart (n : Nat) (ps : List Pre) : Prop := ps.IsChain (fun p q => ¬ (Needs n p ∧ Needs n q))

/-- The node's number of input channels is `n`. -/
def Has (k : Kind) (n : Nat) (ps : List Pre) : Prop :=
  match k with
  | .module m => m = n
  | .first => ps.head?.map Pre.out = some n

/-- The entries of one side of a unit. -/
def side {N : Type} (isOut : Bool) (u : Unit' N) : List (Chan N) := if isOut then u.output else u.input

/-- The ranges of one side of a node. -/
def nodeSide {N H : Type} (isOut : Bool) (n : NodeRanges N H) : List ((Nat × Nat) × H) :=
  if isOut then n.out else n.inp

/-- An entry is listed in the unit of a hash. -/
def Listed {N H : Type} (d : List (H × Unit' N)) (isOut : Bool) (h : H) (c : Chan N) : Prop :=
  ∃ u, (h, u) ∈ d ∧ c ∈ side isOut u

end Verif.ChannelGraph
