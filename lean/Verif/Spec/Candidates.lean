import Verif.Model.Candidates
import Mathlib.Data.List.Perm.Basic

/-! Definitions used in the statements of `Verif/Props/Candidates.lean`. -/

namespace Verif.Candidates
open Verif

variable {S : Type}

/-! ### Specification -/

/-- References an operation puts into the pool. -/
def addedBy (st : State S) : Op S → List Nat
  | .addNew ss => List.range' st.heap.length ss.length
  | .add rs => rs
  | .insert _ r => [r]
  | _ => []

/-- References a whole history puts into the pool, in order. -/
def added : State S → List (Op S) → List Nat
  | _, [] => []
  | st, o :: os => addedBy st o ++ added (step st o).1 os

end Verif.Candidates
