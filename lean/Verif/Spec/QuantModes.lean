import Verif.Model.QuantModes
import Mathlib.Data.List.Forall2
import Mathlib.Tactic

/-! Definitions used in the statements of `Verif/Props/QuantModes.lean`. -/

namespace Verif.QuantModes
open Verif

/-! ### Specification -/

/-- The graph has this fake quantiser under this name. -/
def At (g : Graph) (p : ℕ) (q : Fq) : Prop := g.lookup p = some (.fq q)

/-- What becomes of a module when a graph is brought in step with another: fake quantisers become
those of the other graph, everything else stays. -/
def Stepped (src : Graph) (a b : ℕ × Slot) : Prop :=
  b.1 = a.1 ∧ match a.2 with
    | .fq _ => ∃ q, b.2 = .fq q ∧ At src a.1 q
    | .other w => b.2 = .other w
    | .absent => False

/-- All fake quantisers of a graph are those of the other. -/
def InStep (src g : Graph) : Prop := ∀ p q, (p, Slot.fq q) ∈ g → At src p q

/-- A graph can be brought in step: no child is missing and the other graph has all its fake quantisers,
with the same sort of observer. -/
def Fits (src g : Graph) : Prop :=
  (∀ p, (p, Slot.absent) ∉ g) ∧ ∀ p q, (p, Slot.fq q) ∈ g → ∃ s, At src p s ∧ s.minmax = q.minmax

/-- An effect for the examples: the scale becomes the batch. -/
def toBatch : Effect := fun x _ q => { q with scale := [(x : ℚ)], stats := [(x : ℚ)] }

end Verif.QuantModes
