import Verif.Model.Container
import Mathlib.Tactic.Linarith
import Mathlib.Data.List.Basic

/-! Definitions used in the statements of `Verif/Props/Container.lean`. -/

namespace Verif.Container
open Verif

variable {α : Type}

/-! ### Specification -/

/-- Two half-open ranges share an index. -/
def Overlap (a b : Key) : Prop := ∃ i : Int, a.1 ≤ i ∧ i < a.2 ∧ b.1 ≤ i ∧ i < b.2

/-- The new range starts before an existing one and reaches its end or further. -/
def Swallows (new old : Key) : Prop := new.1 < old.1 ∧ old.2 ≤ new.2

/-- Every stored range is non-empty and the ranges are sorted. -/
def Inv (d : Dict α) : Prop :=
  (∀ x ∈ d, x.1.1 < x.1.2) ∧ d.Pairwise (fun a b => keyLe a.1 b.1 = true)

end Verif.Container
