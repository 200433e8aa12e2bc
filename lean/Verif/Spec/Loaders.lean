import Verif.Model.Loaders
import Mathlib.Tactic

/-! Definitions used in the statements of `Verif/Props/Loaders.lean`. -/

namespace Verif.Loaders
open Verif

variable {β : Type}

/-- The number of batches of the shortest loader. -/
def shortest (ls : List (List β)) : Nat := match ls with
  | [] => 0
  | l :: ls => ls.foldl (fun m k => min m k.length) l.length

/-- The `i`-th batches of all loaders. -/
def batchAt (ls : List (List β)) (i : Nat) : Option (List β) := ls.mapM (·[i]?)

end Verif.Loaders
