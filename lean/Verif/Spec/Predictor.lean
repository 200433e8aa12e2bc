import Verif.Model.Predictor
import Mathlib.Tactic

/-! Definitions used in the statements of `Verif/Props/Predictor.lean`. -/

namespace Verif.Predictor
open Verif

variable {α : Type} [DecidableEq α]

/-- An architecture for the search groups: an entry for each group, in the order of the groups,
with a choice of the group; a dumped entry carries the group's own choices. -/
def Fits : List (Group α) → List (String × Entry α) → Prop :=
  List.Forall₂ fun g e => e.1 = g.key ∧ e.2.chosen ∈ g.choices ∧ ∀ all, (∃ c, e.2 = .dump all c) → all = some g.choices

/-- The choices it makes. -/
def chosen (m : List (String × Entry α)) : List (String × α) := m.map fun e => (e.1, e.2.chosen)

/-- The encoding of an architecture, written down. -/
def normalOf (gs : List (Group α)) (m : List (String × Entry α)) : List Nat :=
  (gs.zip m).map fun p => p.1.choices.idxOf p.2.2.chosen

def onehotOf (gs : List (Group α)) (m : List (String × Entry α)) : List Nat :=
  (gs.zip m).flatMap fun p => block p.1.choices.length (p.1.choices.idxOf p.2.2.chosen)

end Verif.Predictor
